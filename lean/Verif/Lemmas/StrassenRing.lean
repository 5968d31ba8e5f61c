import Verif.Lemmas.Sched2
import Verif.SpecStrassen
import Mathlib.Algebra.BigOperators.Group.Finset.Basic
import Mathlib.Data.List.GetD
import Mathlib.Tactic.Ring

/-!
# Strassen's identities
-/

namespace GB
namespace Strassen

set_option linter.unusedSectionVars false

theorem ord_zero (n : Nat) : ord 0 n = 0 := by
  induction n using Nat.strongRecOn with
  | _ n ih =>
    by_cases h : n ≤ 0
    · rw [ord_le h]; omega
    · rw [ord_gt h, ih (n / 2) (by omega)]

theorem ord_pow {k : Nat} : ∀ n, ∃ j, n / 2 ^ j ≤ k ∧ (∀ i, i < j → k < n / 2 ^ i) ∧ ord k n = n / 2 ^ j * 2 ^ j := by
  intro n
  induction n using Nat.strongRecOn with
  | _ n ih =>
    by_cases h : n ≤ k
    · exact ⟨0, by simpa using h, fun i hi => absurd hi (by omega), by rw [ord_le h]; simp⟩
    · obtain ⟨j, h1, h2, h3⟩ := ih (n / 2) (by omega)
      have e : ∀ i, n / 2 ^ (i + 1) = n / 2 / 2 ^ i := fun i => by
        rw [Nat.div_div_eq_div_mul, pow_succ, Nat.mul_comm]
      refine ⟨j + 1, by rw [e]; exact h1, fun i hi => ?_, ?_⟩
      · cases i with
        | zero => simp; omega
        | succ i => rw [e]; exact h2 i (by omega)
      · rw [ord_gt h, h3, e, pow_succ, Nat.mul_assoc]

theorem not_step_ret {T : Type} [GoNum T] {gas : Nat} {crossover : Int} {live : Bool} {v : Mat T} {c : Call T} :
    ¬ Step gas crossover live (.ret v) c := by
  intro h; cases h

theorem Steps.head {T : Type} [GoNum T] {gas : Nat} {crossover : Int} {live : Bool} {c c' c'' : Call T} {n : Nat}
    (h : Step gas crossover live c c') (h' : Steps gas crossover live n c' c'') :
    Steps gas crossover live (n + 1) c c'' := by
  induction h' with
  | refl => exact .tail .refl h
  | tail _ h2 ih => exact .tail (ih h) h2

section
variable {T : Type} [GoNum T] {gas : Nat} {crossover : Int}

theorem counted_inside {c c' : Call T} (h : Inside c c') : Counted c' → Counted c := by
  induction h with
  | self => exact id
  | worker k _ ih => exact fun h => ih (h.2 k)

theorem good_steps {c c' : Call T} {m : Nat} (h : Steps gas crossover true m c c') :
    Counted c → ∀ n v, Good gas crossover c n v → ∃ n', n' + m ≤ n ∧ Good gas crossover c' n' v := by
  induction h with
  | refl => intro _ n v h; exact ⟨n, le_refl _, h⟩
  | tail h1 h2 ih =>
    intro hc n v h
    obtain ⟨n1, e1, f1⟩ := ih hc n v h
    obtain ⟨n2, e2, f2⟩ := good_step h2 (counted_steps h1 hc) n1 v f1
    exact ⟨n2, by omega, f2⟩

theorem good_start {c c' : Call T} {m : Nat} (h : Steps gas crossover true m c c') :
    Counted c → ∀ n v, Good gas crossover c' n v → ∃ n', Good gas crossover c n' v := by
  induction h with
  | refl => intro _ n v h; exact ⟨n, h⟩
  | tail h1 h2 ih =>
    intro hc n v h
    obtain ⟨n1, f1⟩ := good_back h2 (counted_steps h1 hc) n v h
    exact ih hc n1 v f1

theorem good_always {c : Call T} {n : Nat} {v : Mat T} (hc : Counted c) (h : Good gas crossover c n v)
    (h0 : ∃ n, Steps gas crossover true n c (.ret v)) :
    AlwaysReturns gas crossover true c (fun v' => v' = v) := by
  refine ⟨⟨n, fun m c' hs => ?_⟩, ⟨h0.choose, v, h0.choose_spec⟩, fun m c' hs hh => ?_, fun m v' hs => ?_⟩
  · obtain ⟨n', e, -⟩ := good_steps hs hc n v h
    omega
  · obtain ⟨n', e, g⟩ := good_steps hs hc n v h
    rcases good_progress c' n' v (counted_steps hs hc) g with e | ⟨c'', e⟩
    · exact ⟨v, e, rfl⟩
    · exact absurd e (hh c'')
  · obtain ⟨n', e, g⟩ := good_steps hs hc n v h
    exact g.2

variable [GoStore T] {k : Nat} {live : Bool} {tr : Prop}

theorem fine_reach (htr : tr → live = true) : ∀ (μ : Nat) (c : Call T) n t, Counted c → Fine gas k tr c n t μ →
    ∃ m v, Steps gas (k : Int) live m c (.ret v) := by
  intro μ
  induction μ using Nat.strongRecOn with
  | _ μ ih =>
    intro c n t hc h
    rcases fine_progress (live := live) c n t μ hc h with ⟨v, rfl⟩ | ⟨c', e⟩
    · exact ⟨0, v, .refl⟩
    · obtain ⟨μ', h1, h2⟩ := fine_step htr e hc n t μ h
      obtain ⟨m, v, h3⟩ := ih μ' h1 c' n t (counted_step e hc) h2
      exact ⟨m + 1, v, Steps.head e h3⟩

theorem fine_always {c : Call T} {n : Nat} {t : Nat → Nat → T} {μ : Nat} (hc : Counted c)
    (htr : tr → live = true) (h : Fine gas k tr c n t μ) :
    AlwaysReturns gas (k : Int) live c (fun v => Sq tr (ord k n) t v) := by
  refine ⟨⟨μ, fun m c' hs => ?_⟩, fine_reach htr μ c n t hc h, fun m c' hs hh => ?_, fun m v' hs => ?_⟩
  · obtain ⟨μ', e, -⟩ := fine_steps htr hs hc n t μ h
    omega
  · obtain ⟨μ', e, g⟩ := fine_steps htr hs hc n t μ h
    rcases fine_progress (live := live) c' n t μ' (counted_steps hs hc) g with ⟨v, rfl⟩ | ⟨c'', e⟩
    · exact ⟨v, rfl, g.2⟩
    · exact absurd e (hh c'')
  · obtain ⟨μ', e, g⟩ := fine_steps htr hs hc n t μ h
    exact g.2

end

/-- A negative crossover point: no call in the state can return. -/
def Endless {T : Type} [GoNum T] : Call T → Prop
  | .start _ _ => True
  | .crash => True
  | .ret _ => False
  | .gone => False
  | .wait kid _ i => i = 0 ∧ ∀ k, Endless (kid k)

theorem endless_step {T : Type} [GoNum T] {gas : Nat} {crossover : Int} {live : Bool} (hn : crossover < 0)
    {c c' : Call T} (h : Step gas crossover live c c') : Endless c → Endless c' := by
  induction h with
  | mismatch => exact fun _ => trivial
  | leaf cn _ _ h => omega
  | leafPanic => exact fun _ => trivial
  | fork => exact fun _ => ⟨rfl, fun _ => trivial⟩
  | forkPanic => exact fun _ => trivial
  | @work kid m i c k hs ih =>
    rintro ⟨h1, h2⟩
    refine ⟨h1, fun j => ?_⟩
    by_cases e : j = k
    · subst e; rw [Function.update_self]; exact ih (h2 j)
    · rw [Function.update_of_ne e]; exact h2 j
  | @deliver kid m i v k hi hv =>
    rintro ⟨h1, h2⟩
    have := h2 k
    rw [hv] at this
    exact this.elim
  | done _ _ h => rintro ⟨h1, -⟩; omega
  | donePanic => exact fun _ => trivial

variable {T : Type} [GoRing T] [GoStore T]

theorem dotSum_sum (n : Nat) (a b : Nat → T) : dotSum n a b = ∑ l ∈ Finset.range n, a l * b l := by
  induction n with
  | zero => rfl
  | succ n ih =>
    rw [Finset.sum_range_succ, ← ih]
    unfold dotSum
    rw [List.range_succ, List.foldl_append]
    rfl

theorem prod_sum (n : Nat) (A B : Nat → Nat → T) (i j : Nat) :
    prod n A B i j = ∑ l ∈ Finset.range n, A i l * B l j := dotSum_sum _ _ _

/-- The seven products make the four blocks of the product. -/
theorem combine_prod (m : Nat) (A B : Nat → Nat → T) (i j : Nat) :
    combine m (fun k => prod m (lefts m A k) (rights m B k)) i j = prod (m * 2) A B i j := by
  have hs : ∀ x y, ∑ l ∈ Finset.range (m * 2), A x l * B l y =
      ∑ l ∈ Finset.range m, (A x l * B l y + A x (l + m) * B (l + m) y) := by
    intro x y
    rw [show m * 2 = m + m by omega, Finset.sum_range_add, ← Finset.sum_add_distrib]
    exact Finset.sum_congr rfl fun l _ => by rw [Nat.add_comm m l]
  rw [prod_sum, hs]
  unfold combine quad
  simp only [prod_sum]
  have l0 : lefts m A 0 = fun i j => sub A 0 0 i j + sub A m m i j := rfl
  have l1 : lefts m A 1 = fun i j => sub A m 0 i j + sub A m m i j := rfl
  have l2 : lefts m A 2 = sub A 0 0 := rfl
  have l3 : lefts m A 3 = sub A m m := rfl
  have l4 : lefts m A 4 = fun i j => sub A 0 0 i j + sub A 0 m i j := rfl
  have l5 : lefts m A 5 = fun i j => sub A m 0 i j - sub A 0 0 i j := rfl
  have l6 : lefts m A 6 = fun i j => sub A 0 m i j - sub A m m i j := rfl
  have r0 : rights m B 0 = fun i j => sub B 0 0 i j + sub B m m i j := rfl
  have r1 : rights m B 1 = sub B 0 0 := rfl
  have r2 : rights m B 2 = fun i j => sub B 0 m i j - sub B m m i j := rfl
  have r3 : rights m B 3 = fun i j => sub B m 0 i j - sub B 0 0 i j := rfl
  have r4 : rights m B 4 = sub B m m := rfl
  have r5 : rights m B 5 = fun i j => sub B 0 0 i j + sub B 0 m i j := rfl
  have r6 : rights m B 6 = fun i j => sub B m 0 i j + sub B m m i j := rfl
  simp only [l0, l1, l2, l3, l4, l5, l6, r0, r1, r2, r3, r4, r5, r6, sub, Nat.add_zero]
  by_cases p : i < m <;> by_cases q : j < m
  · simp only [p, q, if_true, ← Finset.sum_add_distrib, ← Finset.sum_sub_distrib]
    exact Finset.sum_congr rfl fun l _ => by ring
  · have ej : j - m + m = j := by omega
    simp only [p, q, if_true, if_false, ej, ← Finset.sum_add_distrib, ← Finset.sum_sub_distrib]
    exact Finset.sum_congr rfl fun l _ => by ring
  · have ei : i - m + m = i := by omega
    simp only [p, q, if_true, if_false, ei, ← Finset.sum_add_distrib, ← Finset.sum_sub_distrib]
    exact Finset.sum_congr rfl fun l _ => by ring
  · have ei : i - m + m = i := by omega
    have ej : j - m + m = j := by omega
    simp only [p, q, if_false, ei, ej, ← Finset.sum_add_distrib, ← Finset.sum_sub_distrib]
    exact Finset.sum_congr rfl fun l _ => by ring

theorem Halves.small {k n : Nat} (h : n ≤ k) : Halves k n := ⟨n, 0, h, by simp⟩

theorem Halves.double {k n : Nat} (h : Halves k n) : Halves k (n * 2) := by
  obtain ⟨m, j, h1, rfl⟩ := h
  exact ⟨m, j + 1, h1, by rw [pow_succ]; ring⟩

theorem halves_half {k n : Nat} (h : Halves k n) (hn : ¬ n ≤ k) : n / 2 * 2 = n ∧ Halves k (n / 2) := by
  obtain ⟨m, j, h1, rfl⟩ := h
  cases j with
  | zero => rw [pow_zero, Nat.mul_one] at hn; exact absurd h1 hn
  | succ j =>
    have e : m * 2 ^ (j + 1) = m * 2 ^ j * 2 := by rw [pow_succ]; ring
    rw [e, Nat.mul_div_cancel _ (by decide)]
    exact ⟨rfl, m, j, h1, rfl⟩

theorem ord_halves {k : Nat} : ∀ n, ord k n = n ↔ Halves k n := by
  intro n
  induction n using Nat.strongRecOn with
  | _ n ih =>
    by_cases h : n ≤ k
    · rw [ord_le h]; exact ⟨fun _ => Halves.small h, fun _ => rfl⟩
    · rw [ord_gt h]
      constructor
      · intro e
        have h1 := ord_le_self (k := k) (n / 2)
        have h2 : ord k (n / 2) = n / 2 := by omega
        have := Halves.double ((ih (n / 2) (by omega)).1 h2)
        rwa [show n / 2 * 2 = n by omega] at this
      · intro hh
        obtain ⟨h1, h2⟩ := halves_half hh h
        rw [(ih (n / 2) (by omega)).2 h2, h1]

theorem sres_prod {k : Nat} : ∀ n, Halves k n → ∀ (A B : Nat → Nat → T) i j, i < n → j < n →
    sres k n A B i j = prod n A B i j := by
  intro n
  induction n using Nat.strongRecOn with
  | _ n ih =>
    intro hh A B i j hi hj
    by_cases h : n ≤ k
    · rw [sres_le h]
    · obtain ⟨h1, h2⟩ := halves_half hh h
      rw [sres_gt h, (ord_halves (n / 2)).2 h2]
      rw [combine_congr (Q := fun x => prod (n / 2) (lefts (n / 2) A x) (rights (n / 2) B x))
        (fun x a b ha hb => ih (n / 2) (by omega) h2 _ _ a b ha hb) (by omega) (by omega)]
      rw [combine_prod, h1]

theorem kept_le {k n : Nat} (h : n ≤ k) : kept k n = List.range n := by rw [kept, if_pos h]
theorem kept_gt {k n : Nat} (h : ¬ n ≤ k) : kept k n = kept k (n / 2) ++ (kept k (n / 2)).map (n / 2 + ·) := by
  rw [kept, if_neg h]

theorem kept_length {k : Nat} : ∀ n, (kept k n).length = ord k n := by
  intro n
  induction n using Nat.strongRecOn with
  | _ n ih =>
    by_cases h : n ≤ k
    · rw [kept_le h, ord_le h, List.length_range]
    · rw [kept_gt h, ord_gt h, List.length_append, List.length_map, ih (n / 2) (by omega)]
      omega

/-- Where row or column `i` of the result comes from. -/
def place (k n i : Nat) : Nat := (kept k n).getD i 0

theorem place_le {k n i : Nat} (h : n ≤ k) (hi : i < n) : place k n i = i := by
  unfold place
  rw [kept_le h, List.getD_eq_getElem _ _ (by simpa using hi), List.getElem_range]

theorem place_low {k n i : Nat} (h : ¬ n ≤ k) (hi : i < ord k (n / 2)) : place k n i = place k (n / 2) i := by
  unfold place
  rw [← kept_length] at hi
  rw [kept_gt h, List.getD_append _ _ _ _ hi]

theorem place_high {k n i : Nat} (h : ¬ n ≤ k) (hi : i < ord k (n / 2)) :
    place k n (i + ord k (n / 2)) = place k (n / 2) i + n / 2 := by
  unfold place
  rw [← kept_length] at hi ⊢
  rw [kept_gt h, List.getD_append_right _ _ _ _ (by omega), Nat.add_sub_cancel,
    List.getD_eq_getElem _ _ (by simpa using hi), List.getD_eq_getElem _ _ hi, List.getElem_map, Nat.add_comm]

theorem lefts_at {m h : Nat} {A A' : Nat → Nat → T} {x y p q : Nat}
    (h1 : A (p + 0) (q + 0) = A' (x + 0) (y + 0)) (h2 : A (p + 0) (q + h) = A' (x + 0) (y + m))
    (h3 : A (p + h) (q + 0) = A' (x + m) (y + 0)) (h4 : A (p + h) (q + h) = A' (x + m) (y + m)) (i : Fin 7) :
    lefts h A i p q = lefts m A' i x y := by
  have e : ∀ (m x y : Nat) (A : Nat → Nat → T), lefts m A i x y =
    ![A (x + 0) (y + 0) + A (x + m) (y + m), A (x + m) (y + 0) + A (x + m) (y + m),
    A (x + 0) (y + 0), A (x + m) (y + m), A (x + 0) (y + 0) + A (x + 0) (y + m),
    A (x + m) (y + 0) - A (x + 0) (y + 0), A (x + 0) (y + m) - A (x + m) (y + m)] i := by
    intro m x y A; fin_cases i <;> rfl
  rw [e, e, h1, h2, h3, h4]

theorem rights_at {m h : Nat} {A A' : Nat → Nat → T} {x y p q : Nat}
    (h1 : A (p + 0) (q + 0) = A' (x + 0) (y + 0)) (h2 : A (p + 0) (q + h) = A' (x + 0) (y + m))
    (h3 : A (p + h) (q + 0) = A' (x + m) (y + 0)) (h4 : A (p + h) (q + h) = A' (x + m) (y + m)) (i : Fin 7) :
    rights h A i p q = rights m A' i x y := by
  have e : ∀ (m x y : Nat) (A : Nat → Nat → T), rights m A i x y =
    ![A (x + 0) (y + 0) + A (x + m) (y + m), A (x + 0) (y + 0),
    A (x + 0) (y + m) - A (x + m) (y + m), A (x + m) (y + 0) - A (x + 0) (y + 0), A (x + m) (y + m),
    A (x + 0) (y + 0) + A (x + 0) (y + m), A (x + m) (y + 0) + A (x + m) (y + m)] i := by
    intro m x y A; fin_cases i <;> rfl
  rw [e, e, h1, h2, h3, h4]

theorem prod_congr {n i j : Nat} {A A' B B' : Nat → Nat → T} (hi : i < n) (hj : j < n)
    (hA : ∀ x y, x < n → y < n → A x y = A' x y) (hB : ∀ x y, x < n → y < n → B x y = B' x y) :
    prod n A B i j = prod n A' B' i j :=
  dotSum_congr (fun l hl => hA i l hi hl) (fun l hl => hB l j hl hj)

/-- The result is the product of the kept parts. -/
theorem sres_kept {k : Nat} : ∀ n (A B : Nat → Nat → T) i j, i < ord k n → j < ord k n →
    sres k n A B i j =
      prod (ord k n) (fun x y => A (place k n x) (place k n y)) (fun x y => B (place k n x) (place k n y)) i j := by
  intro n
  induction n using Nat.strongRecOn with
  | _ n ih =>
    intro A B i j hi hj
    by_cases h : n ≤ k
    · rw [sres_le h, ord_le h]
      rw [ord_le h] at hi hj
      exact prod_congr hi hj (fun x y hx hy => by rw [place_le h hx, place_le h hy])
        (fun x y hx hy => by rw [place_le h hx, place_le h hy])
    · rw [ord_gt h] at hi hj
      rw [sres_gt h, ord_gt h, ← combine_prod]
      refine combine_congr (fun x p q hp hq => ?_) hi hj
      rw [ih (n / 2) (by omega) _ _ p q hp hq]
      refine prod_congr hp hq (fun a b ha hb => lefts_at ?_ ?_ ?_ ?_ x) (fun a b ha hb => rights_at ?_ ?_ ?_ ?_ x) <;>
        simp only [place_low h ha, place_low h hb, place_high h ha, place_high h hb, Nat.add_zero]

end Strassen
end GB
