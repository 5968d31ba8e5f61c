import Verif.Lemmas.Sched
import Verif.Lemmas.Strassen

/-!
# What every execution on square operands comes to
-/

namespace GB
namespace Strassen

set_option linter.unusedSectionVars false

variable {T : Type} [GoNum T] [GoStore T] {gas : Nat} {k : Nat} {live : Bool} {tr : Prop}

/-- The order of the result for operands of order `n` and the crossover point `k`. -/
def ord (k n : Nat) : Nat :=
  if n ≤ k then n else ord k (n / 2) * 2
termination_by n
decreasing_by omega

/-- The depth of the recursion. -/
def dep (k n : Nat) : Nat :=
  if n ≤ k then 1 else dep k (n / 2) + 1
termination_by n
decreasing_by omega

/-- The table of the result. -/
def sres (k n : Nat) (A B : Nat → Nat → T) : Nat → Nat → T :=
  if n ≤ k then prod n A B
  else combine (ord k (n / 2)) (fun i => sres k (n / 2) (lefts (n / 2) A i) (rights (n / 2) B i))
termination_by n
decreasing_by omega

theorem ord_le {n : Nat} (h : n ≤ k) : ord k n = n := by rw [ord, if_pos h]
theorem ord_gt {n : Nat} (h : ¬ n ≤ k) : ord k n = ord k (n / 2) * 2 := by rw [ord, if_neg h]
theorem dep_le {n : Nat} (h : n ≤ k) : dep k n = 1 := by rw [dep, if_pos h]
theorem dep_gt {n : Nat} (h : ¬ n ≤ k) : dep k n = dep k (n / 2) + 1 := by rw [dep, if_neg h]
theorem sres_le {n : Nat} {A B : Nat → Nat → T} (h : n ≤ k) : sres k n A B = prod n A B := by rw [sres, if_pos h]
theorem sres_gt {n : Nat} {A B : Nat → Nat → T} (h : ¬ n ≤ k) : sres k n A B =
    combine (ord k (n / 2)) (fun i => sres k (n / 2) (lefts (n / 2) A i) (rights (n / 2) B i)) := by
  rw [sres, if_neg h]

theorem ord_le_self (n : Nat) : ord k n ≤ n := by
  induction n using Nat.strongRecOn with
  | _ n ih =>
    by_cases h : n ≤ k
    · rw [ord_le h]
    · rw [ord_gt h]
      have := ih (n / 2) (by omega)
      omega

theorem combine_congr {m : Nat} {P Q : Fin 7 → Nat → Nat → T} (h : ∀ i x y, x < m → y < m → P i x y = Q i x y)
    {x y : Nat} (hx : x < m * 2) (hy : y < m * 2) : combine m P x y = combine m Q x y := by
  unfold combine quad
  split <;> split <;> simp only [] <;> rw [h _ _ _ (by omega) (by omega), h _ _ _ (by omega) (by omega)] <;>
    first | rfl | rw [h _ _ _ (by omega) (by omega), h _ _ _ (by omega) (by omega)]

theorem lefts_congr {m n : Nat} {A A' : Nat → Nat → T} (hm : m * 2 ≤ n)
    (h : ∀ x y, x < n → y < n → A x y = A' x y) (i : Fin 7)
    {x y : Nat} (hx : x < m) (hy : y < m) : lefts m A i x y = lefts m A' i x y := by
  have h1 := h (x + 0) (y + 0) (by omega) (by omega)
  have h2 := h (x + 0) (y + m) (by omega) (by omega)
  have h3 := h (x + m) (y + 0) (by omega) (by omega)
  have h4 := h (x + m) (y + m) (by omega) (by omega)
  have e : lefts m A i x y = ![A (x + 0) (y + 0) + A (x + m) (y + m), A (x + m) (y + 0) + A (x + m) (y + m),
    A (x + 0) (y + 0), A (x + m) (y + m), A (x + 0) (y + 0) + A (x + 0) (y + m),
    A (x + m) (y + 0) - A (x + 0) (y + 0), A (x + 0) (y + m) - A (x + m) (y + m)] i := by fin_cases i <;> rfl
  rw [e, h1, h2, h3, h4]
  fin_cases i <;> rfl

theorem rights_congr {m n : Nat} {A A' : Nat → Nat → T} (hm : m * 2 ≤ n)
    (h : ∀ x y, x < n → y < n → A x y = A' x y) (i : Fin 7)
    {x y : Nat} (hx : x < m) (hy : y < m) : rights m A i x y = rights m A' i x y := by
  have h1 := h (x + 0) (y + 0) (by omega) (by omega)
  have h2 := h (x + 0) (y + m) (by omega) (by omega)
  have h3 := h (x + m) (y + 0) (by omega) (by omega)
  have h4 := h (x + m) (y + m) (by omega) (by omega)
  have e : rights m A i x y = ![A (x + 0) (y + 0) + A (x + m) (y + m), A (x + 0) (y + 0),
    A (x + 0) (y + m) - A (x + m) (y + m), A (x + m) (y + 0) - A (x + 0) (y + 0), A (x + m) (y + m),
    A (x + 0) (y + 0) + A (x + 0) (y + m), A (x + m) (y + 0) + A (x + m) (y + m)] i := by fin_cases i <;> rfl
  rw [e, h1, h2, h3, h4]
  fin_cases i <;> rfl

/-- The result depends on the cells of the operands only. -/
theorem sres_congr : ∀ (n : Nat) {A A' B B' : Nat → Nat → T},
    (∀ x y, x < n → y < n → A x y = A' x y) → (∀ x y, x < n → y < n → B x y = B' x y) →
    ∀ x y, x < ord k n → y < ord k n → sres k n A B x y = sres k n A' B' x y := by
  intro n
  induction n using Nat.strongRecOn with
  | _ n ih =>
    intro A A' B B' hA hB x y hx hy
    by_cases h : n ≤ k
    · rw [ord_le h] at hx hy
      rw [sres_le h, sres_le h]
      exact dotSum_congr (fun l hl => hA x l hx hl) (fun l hl => hB l y hl hy)
    · rw [ord_gt h] at hx hy
      rw [sres_gt h, sres_gt h]
      refine combine_congr (fun i x y hx hy => ?_) hx hy
      exact ih (n / 2) (by omega) (fun x y hx hy => lefts_congr (by omega) hA i hx hy)
        (fun x y hx hy => rights_congr (by omega) hB i hx hy) x y hx hy

/-- An operand of the inner dimension `n` with the table `t`: a well-formed object. If the ordinary product is used
it is square, and the product's reading `rd` of it is exact (if `tr`: the values are followed); otherwise `At` reads
`t` off it at all places of the four blocks. -/
structure Operand (tr : Prop) (k n : Nat) (a : Mat T) (inner outer : Nat) (rd t : Nat → Nat → T) : Prop where
  wf : a.WF
  inner : inner = n
  small : n ≤ k → outer = n
  big : ¬ n ≤ k → Cells a (n / 2 + n / 2) t
  fit : tr → n ≤ k → ∀ i j, i < n → j < n → rd i j = t i j

abbrev Left (tr : Prop) (k n : Nat) (a : Mat T) (t : Nat → Nat → T) : Prop := Operand tr k n a a.cols a.rows a.rowVal t
abbrev Right (tr : Prop) (k n : Nat) (b : Mat T) (t : Nat → Nat → T) : Prop :=
  Operand tr k n b b.rows b.cols (fun l j => b.colVal j l) t

/-- A large enough operand. -/
theorem Cells.operand {m : Mat T} {n : Nat} (h : m.WF) (hr : n / 2 * 2 ≤ m.rows) (hc : n / 2 * 2 ≤ m.cols) :
    Cells m (n / 2 + n / 2) m.val := Cells.of_wf h (by omega) (by omega)

theorem Sq.left {p : Prop} {n : Nat} {t : Nat → Nat → T} {a : Mat T} (h : Sq p n t a) : Left tr k n a a.val :=
  ⟨h.wf, h.cols, fun _ => h.rows, fun _ => Cells.operand h.wf (by rw [h.rows]; omega) (by rw [h.cols]; omega),
    fun _ _ i j _ _ => by unfold Mat.rowVal; rw [h.kind]⟩

theorem Sq.right {p : Prop} {n : Nat} {t : Nat → Nat → T} {a : Mat T} (h : Sq p n t a) : Right tr k n a a.val :=
  ⟨h.wf, h.rows, fun _ => h.cols, fun _ => Cells.operand h.wf (by rw [h.rows]; omega) (by rw [h.cols]; omega),
    fun _ _ i j _ _ => by unfold Mat.colVal; rw [h.kind]⟩

/-- The state of a call on operands of order `n` that comes to a matrix with the table `t` (if `tr`) in at most `c` steps. -/
def Fine (gas k : Nat) (tr : Prop) : Call T → Nat → (Nat → Nat → T) → Nat → Prop
  | .start a b, n, t, c => ∃ A B, Left tr k n a A ∧ Right tr k n b B ∧ n * n ≤ gas ∧ c = cost (dep k n) ∧
      (tr → ∀ i j, i < ord k n → j < ord k n → sres k n A B i j = t i j)
  | .ret v, n, t, c => c = 1 ∧ Sq tr (ord k n) t v
  | .gone, _, _, _ => False
  | .crash, _, _, _ => False
  | .wait kid m _, n, t, c => ¬ n ≤ k ∧ n * n ≤ gas ∧ ∃ (P : Fin 7 → Nat → Nat → T) (ns : Fin 7 → Nat),
      c = 2 + ∑ i, ns i ∧
      (tr → ∀ i j, i < ord k n → j < ord k n → combine (ord k (n / 2)) P i j = t i j) ∧
      ∀ i, (kid i = .gone ∧ ns i = 0 ∧ ∃ v, m (i.1 + 1) = some v ∧ Sq tr (ord k (n / 2)) (P i) v) ∨
        Fine gas k tr (kid i) (n / 2) (P i) (ns i)

theorem leafV_operand {cn : Option Nat} {n : Nat} {a b : Mat T} {A B : Nat → Nat → T} (h : n ≤ k) (ha : Left tr k n a A)
    (hb : Right tr k n b B) (hl : tr → cn = none) :
    ∃ v, leafV gas cn a b = .ok v ∧ Sq tr (ord k n) (sres k n A B) v := by
  rw [ord_le h, sres_le h]
  obtain ⟨v, h1, h2, h3, h4, h5, h6⟩ := leafV_ok (gas := gas) (live := tr) ha.wf hb.wf
    (ha.inner.trans hb.inner.symm) hl
  refine ⟨v, h1, h2, h3, h4.trans (ha.small h), h5.trans (hb.small h), ?_⟩
  intro hlive i j hi hj
  rw [h6 hlive i j (by rw [ha.small h]; exact hi) (by rw [hb.small h]; exact hj), ha.inner]
  exact dotSum_congr (fun l hl => ha.fit hlive h i l hi hl) (fun l hl => hb.fit hlive h l j hl hj)

theorem half_gas {n : Nat} (h : n * n ≤ gas) : n / 2 * (n / 2) ≤ gas :=
  le_trans (Nat.mul_le_mul (Nat.div_le_self n 2) (Nat.div_le_self n 2)) h

theorem ord_gas {n : Nat} (h : n * n ≤ gas) : ord k (n / 2) * ord k (n / 2) ≤ gas :=
  le_trans (Nat.mul_le_mul (ord_le_self _) (ord_le_self _)) (half_gas h)

theorem cost_ge {n : Nat} : 3 ≤ cost (dep k n) := by
  by_cases h : n ≤ k
  · rw [dep_le h]; simp [cost]
  · rw [dep_gt h]; simp [cost]

/-- The results of the workers, once all are there. -/
theorem joinV_all {cn : Option Nat} {n : Nat} {m : Nat → Option (Mat T)} {P : Fin 7 → Nat → Nat → T}
    (h : ∀ i : Fin 7, ∃ v, m (i.1 + 1) = some v ∧ Sq tr n (P i) v) (hl : tr → cn = none)
    (hg : n * n ≤ gas) :
    ∃ v, joinV gas cn m = .ok v ∧ Sq tr (n * 2) (combine n P) v := by
  choose vs h1 h2 using h
  rw [joinV_congr (m' := slots vs) (fun i => by rw [h1, slots_tag])]
  exact joinV_ok h2 hl hg

theorem fine_step {c c' : Call T} (htr : tr → live = true) (h : Step gas (k : Int) live c c') :
    Counted c → ∀ n t μ, Fine gas k tr c n t μ → ∃ μ', μ' < μ ∧ Fine gas k tr c' n t μ' := by
  induction h with
  | mismatch h1 =>
    rintro - n t μ ⟨A, B, ha, hb, -⟩
    exact absurd (ha.inner.trans hb.inner.symm) h1
  | leaf cn hc h1 h2 h3 =>
    rintro - n t μ ⟨A, B, ha, hb, hg, rfl, ht⟩
    rw [hb.inner] at h2
    have h2' : n ≤ k := by exact_mod_cast h2
    obtain ⟨v, e, hv⟩ := leafV_operand (gas := gas) (cn := cn) h2' ha hb (fun h => hc (htr h))
    rw [h3] at e
    cases e
    exact ⟨1, lt_of_lt_of_le (by decide) cost_ge, rfl, hv.congr ht⟩
  | leafPanic cn hc h1 h2 h3 =>
    rintro - n t μ ⟨A, B, ha, hb, hg, rfl, ht⟩
    rw [hb.inner] at h2
    have h2' : n ≤ k := by exact_mod_cast h2
    obtain ⟨v, e, hv⟩ := leafV_operand (gas := gas) (cn := cn) h2' ha hb (fun h => hc (htr h))
    rw [h3] at e
    cases e
  | @fork a b ops cn hc h1 h2 h3 =>
    rintro - n t μ ⟨A, B, ha, hb, hg, rfl, ht⟩
    rw [hb.inner] at h2
    have h2' : ¬ n ≤ k := fun h => h2 (by exact_mod_cast h)
    obtain ⟨ops', e, ho⟩ := forkV_ok (gas := gas) (live := tr) hb.inner (ha.big h2') (hb.big h2')
      (fun h => hc (htr h)) hg
    rw [h3] at e
    cases e
    refine ⟨2 + ∑ _i : Fin 7, cost (dep k (n / 2)), ?_, h2', hg,
      fun i => sres k (n / 2) (lefts (n / 2) A i) (rights (n / 2) B i), fun _ => cost (dep k (n / 2)),
      rfl, ?_, fun i => ?_⟩
    · rw [dep_gt h2', Fin.sum_const]
      simp only [cost, smul_eq_mul]
      omega
    · intro hl i j hi hj
      rw [← ht hl i j hi hj, sres_gt h2']
    · refine Or.inr ⟨_, _, (ho i).1.left, (ho i).2.right, half_gas hg, rfl, fun hl x y hx hy => ?_⟩
      exact sres_congr _ ((ho i).1.val hl) ((ho i).2.val hl) x y hx hy
  | forkPanic cn hc h1 h2 h3 =>
    rintro - n t μ ⟨A, B, ha, hb, hg, rfl, ht⟩
    rw [hb.inner] at h2
    have h2' : ¬ n ≤ k := fun h => h2 (by exact_mod_cast h)
    obtain ⟨ops', e, ho⟩ := forkV_ok (gas := gas) (live := tr) hb.inner (ha.big h2') (hb.big h2')
      (fun h => hc (htr h)) hg
    rw [h3] at e
    cases e
  | @work kid m z c i hs ih =>
    rintro hcnt n t μ ⟨h2, hg, P, ns, rfl, ht, hk⟩
    have hi : Fine gas k tr (kid i) (n / 2) (P i) (ns i) := by
      rcases hk i with ⟨e, -⟩ | h
      · rw [e] at hs
        cases hs
      · exact h
    obtain ⟨μ', h3, h4⟩ := ih (hcnt.2 i) _ _ _ hi
    refine ⟨2 + ∑ j, Function.update ns i μ' j, Nat.add_lt_add_left (sum_update ns i μ' h3) 2, h2, hg, P,
      Function.update ns i μ', rfl, ht, fun j => ?_⟩
    by_cases e : j = i
    · subst e
      rw [Function.update_self, Function.update_self]
      exact Or.inr h4
    · rw [Function.update_of_ne e, Function.update_of_ne e]
      exact hk j
  | @deliver kid m z v i hz hv =>
    rintro hcnt n t μ ⟨h2, hg, P, ns, rfl, ht, hk⟩
    have hi : Fine gas k tr (kid i) (n / 2) (P i) (ns i) := by
      rcases hk i with ⟨e, -⟩ | h
      · rw [hv] at e
        cases e
      · exact h
    rw [hv] at hi
    obtain ⟨h3, h4⟩ := hi
    refine ⟨2 + ∑ j, Function.update ns i 0 j, Nat.add_lt_add_left (sum_update ns i 0 (by omega)) 2, h2, hg, P,
      Function.update ns i 0, rfl, ht, fun j => ?_⟩
    by_cases e : j = i
    · subst e
      rw [Function.update_self, Function.update_self]
      exact Or.inl ⟨rfl, rfl, v, Function.update_self .., h4⟩
    · rw [Function.update_of_ne e, Function.update_of_ne e]
      rw [Function.update_of_ne (fun h => e (Fin.ext (by omega)))]
      exact hk j
  | @done kid m z v cn hc h7 hj =>
    rintro hcnt n t μ ⟨h2, hg, P, ns, rfl, ht, hk⟩
    have hk0 := gone_of_seven (hcnt.1 ▸ h7)
    obtain ⟨v', e, hv⟩ := joinV_all (gas := gas) (cn := cn) (fun i => by
      rcases hk i with ⟨-, -, h⟩ | h
      · exact h
      · rw [hk0 i] at h
        exact h.elim) (fun h => hc (htr h)) (ord_gas hg)
    rw [hj] at e
    cases e
    refine ⟨1, by omega, rfl, ?_⟩
    have e2 := ord_gt h2
    rw [e2]
    rw [e2] at ht
    exact hv.congr ht
  | @donePanic kid m z cn hc h7 hj =>
    rintro hcnt n t μ ⟨h2, hg, P, ns, rfl, ht, hk⟩
    have hk0 := gone_of_seven (hcnt.1 ▸ h7)
    obtain ⟨v', e, hv⟩ := joinV_all (gas := gas) (cn := cn) (fun i => by
      rcases hk i with ⟨-, -, h⟩ | h
      · exact h
      · rw [hk0 i] at h
        exact h.elim) (fun h => hc (htr h)) (ord_gas hg)
    rw [hj] at e
    cases e

theorem fine_progress : ∀ (c : Call T) n t μ, Counted c → Fine gas k tr c n t μ →
    (∃ v, c = .ret v) ∨ ∃ c', Step gas (k : Int) live c c' := by
  intro c
  induction c with
  | start a b =>
    rintro n t μ hcnt ⟨A, B, ha, hb, hg, rfl, ht⟩
    right
    have e1 : a.cols = b.rows := ha.inner.trans hb.inner.symm
    by_cases h : n ≤ k
    · obtain ⟨v, e, -⟩ := leafV_operand (gas := gas) (tr := tr) (cn := none) h ha hb (fun _ => rfl)
      exact ⟨_, .leaf none (fun _ => rfl) e1 (by rw [hb.inner]; exact_mod_cast h) e⟩
    · obtain ⟨ops, e, -⟩ := forkV_ok (gas := gas) (live := tr) (cn := none) hb.inner (ha.big h)
        (hb.big h) (fun _ => rfl) hg
      exact ⟨_, .fork none (fun _ => rfl) e1 (by rw [hb.inner]; exact fun h' => h (by exact_mod_cast h')) e⟩
  | wait kid m z ih =>
    rintro n t μ hcnt ⟨h2, hg, P, ns, rfl, ht, hk⟩
    right
    by_cases hall : ∀ i, kid i = .gone
    · obtain ⟨v', e, hv⟩ := joinV_all (gas := gas) (tr := tr) (cn := none) (fun i => by
        rcases hk i with ⟨-, -, h⟩ | h
        · exact h
        · rw [hall i] at h
          exact h.elim) (fun _ => rfl) (ord_gas hg)
      exact ⟨_, .done none (fun _ => rfl) (by rw [hcnt.1, seven_of_gone hall]; omega) e⟩
    · push Not at hall
      obtain ⟨i, hi⟩ := hall
      rcases hk i with ⟨h, -⟩ | h
      · exact absurd h hi
      · rcases ih i _ _ _ (hcnt.2 i) h with ⟨v, e⟩ | ⟨c', e⟩
        · exact ⟨_, .deliver i (hcnt.1 ▸ lt_seven hi) e⟩
        · exact ⟨_, .work i e⟩
  | ret v => intro n t μ _ _; exact Or.inl ⟨v, rfl⟩
  | gone => intro n t μ _ h; exact h.elim
  | crash => intro n t μ _ h; exact h.elim

theorem fine_steps {c c' : Call T} {m : Nat} (htr : tr → live = true) (h : Steps gas (k : Int) live m c c') :
    Counted c → ∀ n t μ, Fine gas k tr c n t μ → ∃ μ', μ' + m ≤ μ ∧ Fine gas k tr c' n t μ' := by
  induction h with
  | refl => intro _ n t μ h; exact ⟨μ, le_refl _, h⟩
  | tail h1 h2 ih =>
    intro hcnt n t μ h
    obtain ⟨μ1, e1, f1⟩ := ih hcnt n t μ h
    obtain ⟨μ2, e2, f2⟩ := fine_step htr h2 (counted_steps h1 hcnt) n t μ1 f1
    exact ⟨μ2, by omega, f2⟩

end Strassen
end GB
