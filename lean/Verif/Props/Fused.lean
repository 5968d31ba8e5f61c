import Verif.Lemmas.Fused
import Verif.Lemmas.FloatLimits
import Verif.Props.FloatSum

/-!
# C87: products on a machine that fuses `x*y + z`

The Go language lets an implementation compute `sum += vR * vC` with one rounding instead of two, and the Go compiler does so on several
machines. `fuse r c l` says whether position `l` of the inner product for cell `(r, c)` is fused; the theorems hold for every `fuse`, so
for machines that always fuse, for those that never do, and for anything in between.
-/

namespace GB

set_option linter.unusedSectionVars false
set_option linter.unusedSimpArgs false

open M Meth

section

variable {f : Fmt} {w : World (Fl f)} {s m out : Ref} {mask : Mask} (fuse : Nat → Nat → Nat → Bool)

/-- C87: the fused operation is the IEEE one: no finite number of the format is nearer to the exact `x*y + z`. -/
theorem C87_fma {x y z : Fl f} (hx : x.Fin) (hy : y.Fin) (hz : z.Fin) (h : |x.rat * y.rat + z.rat| ≤ f.big) :
    (Fl.fma x y z).Nearest (x.rat * y.rat + z.rat) := Fl.fma_nearest hx hy hz h

/-- C87: where the product is a NaN, an infinity or a zero the fused operation is the unfused one, signs of zeros included. -/
theorem C87_exceptional {x y : Fl f} (z : Fl f) (h : ¬ x.Fin ∨ ¬ y.Fin ∨ x.rat = 0 ∨ y.rat = 0) : Fl.fma x y z = x * y + z := by
  obtain ⟨x, hx⟩ := x; obtain ⟨y, hy⟩ := y; obtain ⟨z, hz⟩ := z
  refine Fl.ext ?_
  show x.fma f y z = (x.mul f y).add f z
  change ¬ x.Fin ∨ ¬ y.Fin ∨ x.val = 0 ∨ y.val = 0 at h
  cases x <;> cases y <;> first
    | rfl
    | (exfalso
       rcases h with h | h | h | h
       · exact h trivial
       · exact h trivial
       · exact hx.1 h
       · exact hy.1 h)

/-- C87: the sum of a finite product, however large, and a NaN or an infinity is that NaN or infinity. -/
theorem C87_absorbs {x y z : Fl f} (hx : x.Fin) (hy : y.Fin) (hz : ¬ z.Fin) : Fl.fma x y z = z := by
  obtain ⟨x, hx'⟩ := x; obtain ⟨y, hy'⟩ := y; obtain ⟨z, hz'⟩ := z
  change x.Fin at hx; change y.Fin at hy; change ¬ z.Fin at hz
  refine Fl.ext ?_
  show x.fma f y z = z
  cases x <;> cases y <;> cases z <;> first
    | rfl | exact hx.elim | exact hy.elim | exact absurd trivial hz

/-- C87: of finite numbers the fused operation overflows exactly when the exact result does, to the infinity of its sign; it is a zero
exactly when the exact result is at most half of the least positive number, with the sign of the exact result unless that is 0, and
then it is 0. -/
theorem C87_limits {x y z : Fl f} (hx : x.Fin) (hy : y.Fin) (hz : z.Fin) (h0 : x.rat ≠ 0) (h1 : y.rat ≠ 0) :
    (∀ s, Fl.fma x y z = Fl.inf s ↔ f.over ≤ |x.rat * y.rat + z.rat| ∧ s = decide (x.rat * y.rat + z.rat < 0)) ∧
    (Fl.fma x y z = 0 ↔ 0 ≤ x.rat * y.rat + z.rat ∧ x.rat * y.rat + z.rat ≤ f.tiny) ∧
    (Fl.fma x y z = Fl.negZero ↔ x.rat * y.rat + z.rat < 0 ∧ -f.tiny ≤ x.rat * y.rat + z.rat) ∧
    Fl.fma x y z ≠ Fl.nan := by
  have key : (Fl.fma x y z).1 = f.round false (x.rat * y.rat + z.rat) := by
    obtain ⟨x, hx'⟩ := x; obtain ⟨y, hy'⟩ := y; obtain ⟨z, hz'⟩ := z
    change x.Fin at hx; change y.Fin at hy; change z.Fin at hz
    change x.val ≠ 0 at h0; change y.val ≠ 0 at h1
    show x.fma f y z = f.round false (x.val * y.val + z.val)
    cases x <;> cases y <;> cases z <;> first
      | rfl | exact hx.elim | exact hy.elim | exact hz.elim | exact absurd rfl h0 | exact absurd rfl h1
  have e : ∀ u : Fl f, Fl.fma x y z = u ↔ f.round false (x.rat * y.rat + z.rat) = u.1 :=
    fun u => ⟨fun h => by rw [← key, h], fun h => Fl.ext (key.trans h)⟩
  have ht := f.tiny_pos
  generalize x.rat * y.rat + z.rat = q at *
  refine ⟨fun s => by rw [e]; exact f.round_inf_iff, ?_, ?_, fun h => f.round_ne_nan ((e _).1 h)⟩
  · rw [e]
    show _ = Raw.zero false ↔ _
    by_cases hq : q = 0
    · subst hq
      simp [Fmt.round, ht.le]
    · rw [f.round_zero_iff hq, abs_le]
      constructor
      · rintro ⟨⟨a1, a2⟩, a3⟩
        exact ⟨not_lt.1 (of_decide_eq_false a3.symm), a2⟩
      · rintro ⟨a1, a2⟩
        exact ⟨⟨by linarith, a2⟩, (decide_eq_false (not_lt.2 a1)).symm⟩
  · rw [e]
    show _ = Raw.zero true ↔ _
    by_cases hq : q = 0
    · subst hq
      simp [Fmt.round]
    · rw [f.round_zero_iff hq, abs_le]
      constructor
      · rintro ⟨⟨a1, a2⟩, a3⟩
        exact ⟨of_decide_eq_true a3.symm, a1⟩
      · rintro ⟨a1, a2⟩
        exact ⟨⟨a2, by linarith⟩, (decide_eq_true a1).symm⟩

/-- C87: a machine that never fuses is the one the other claims are about. -/
theorem C87_never (s m : Ref) : Meth.multiplyFused (f := f) (fun _ _ _ => false) s m = Meth.multiply s m := by
  unfold Meth.multiplyFused Meth.multiply Ops.matrixMatrixMultiply
  simp only [Ops.multiply_eq]
  rfl

/-- C87: `MatrixMatrixMultiply` with a mask and a cancellable context. Fusing changes the numbers that are written and nothing else:
which cells are written, what happens to the other objects, and when the call panics. -/
theorem C87_writes (hs : (w.heap s).WF) (hm : (w.heap m).WF) (hout : (w.heap out).WF)
    (hk : (w.heap out).kind ≠ .svec) (h1 : (w.heap m).rows = (w.heap s).cols)
    (h2 : (w.heap out).rows = (w.heap s).rows) (h3 : (w.heap out).cols = (w.heap m).cols)
    (hF : mask.Fits w out) (hS : mask.Sound w) (hne : m ≠ out) :
    Writes w out (fun r c => if mask.bit w r c then (w.heap out).val r c else
        (w.heap out).keep ((List.range (w.heap s).cols).foldl (fun acc l => if fuse r c l
          then Fl.fma ((w.heap s).rowVal r l) ((w.heap m).colVal c l) acc
          else acc + (w.heap s).rowVal r l * (w.heap m).colVal c l) 0))
      (Ops.multiplyFused fuse s m mask out w) :=
  Ops.multiplyBy_writes _ hs hm hout hk h1 h2 h3 hF hS hne

theorem C87_panics (h : ¬ ((w.heap m).rows = (w.heap s).cols ∧ mask.Fits w out)) :
    Ops.multiplyFused fuse s m mask out w = .panic w ∧ Ops.matrixMatrixMultiply s m mask out w = .panic w :=
  ⟨Ops.multiplyBy_panic _ h, Ops.multiply_panic h⟩

/-- What `A.Multiply(B)` returns, bit for bit. -/
theorem C87_returns (hsn : s < w.next) (hmn : m < w.next)
    (hs : (w.heap s).WF) (hm : (w.heap m).WF) (hk : (w.heap s).kind ≠ .svec ∧ (w.heap s).kind ≠ .dvec)
    (h1 : (w.heap m).rows = (w.heap s).cols) (hr : (w.heap s).RowsFit) (hc : (w.heap m).ColsFit) :
    Returns w (w.heap s).kind (w.heap s).rows (w.heap m).cols
      (fun i j => (w.heap s).keep (dotSumBy (fun l => Fl.step (fuse i j l)) (w.heap s).cols
        (fun l => (w.heap s).val i l) (fun l => (w.heap m).val l j)))
      (Meth.multiplyFused fuse s m w) := by
  obtain ⟨o1, o2, o3, o4⟩ := mulOut_ok (w.heap s) (w.heap m) hk
  have es := fresh_ne w (mulOut (w.heap s) (w.heap m)) hsn
  have em := fresh_ne w (mulOut (w.heap s) (w.heap m)) hmn
  have := Ops.multiplyBy_writes (fun r c l => Fl.step (fuse r c l)) (w := fresh w (mulOut (w.heap s) (w.heap m))) (s := s)
    (m := m) (out := w.next)
    (mask := .nil) (by rw [es]; exact hs) (by rw [em]; exact hm) (by rw [fresh_next]; exact o1)
    (by rw [fresh_next, o2]; exact hk.1) (by rw [es, em]; exact h1) (by rw [es, fresh_next]; exact o3)
    (by rw [em, fresh_next]; exact o4) trivial trivial (Nat.ne_of_lt hmn)
  refine (returns_of_writes (m := mulOut (w.heap s) (w.heap m)) (x := do
    let out ← fun w => alloc (mulOut (w.heap s) (w.heap m)) w
    Ops.multiplyFused fuse s m .nil out
    pure out) rfl this o2 o3 o4).congr ?_
  intro i j hi hj
  simp only [es, em, Mask.bit, fresh_next, Bool.false_eq_true, if_false]
  have hd : ∀ (st : Nat → Fl f → Fl f → Fl f → Fl f) (n : Nat) (a b a' b' : Nat → Fl f), (∀ l < n, a l = a' l ∧ b l = b' l) →
      dotSumBy st n a b = dotSumBy st n a' b' := by
    intro st n a b a' b' h
    unfold dotSumBy
    refine List.foldl_ext _ _ _ ?_
    intro x l hl
    obtain ⟨q1, q2⟩ := h l (List.mem_range.1 hl)
    rw [q1, q2]
  rw [hd _ _ _ _ _ _ fun l hl => ⟨Fl.rowVal_exact hs hr hi hl, Fl.colVal_exact hm hc hj (by rw [h1]; exact hl)⟩]
  unfold Mat.keep
  rw [o2]

/-- C87. The accuracy of C59 does not depend on the machine: however steps are fused, every finite cell of `A.Multiply(B)` comes from
finite cells and misses the exact inner product by at most `((1+u)^n - 1) Σ|a||b| + n (1+u)^n η/2`, and a cell is finite if its operands
are and `(1+u)^n (Σ|a||b| + n η/2)` does not exceed the greatest finite number. -/
theorem C87_multiply (hsn : s < w.next) (hmn : m < w.next)
    (hs : (w.heap s).WF) (hm : (w.heap m).WF) (hk : (w.heap s).kind ≠ .svec ∧ (w.heap s).kind ≠ .dvec)
    (h1 : (w.heap m).rows = (w.heap s).cols) (hr : (w.heap s).RowsFit) (hc : (w.heap m).ColsFit) :
    ∃ F, Returns w (w.heap s).kind (w.heap s).rows (w.heap m).cols F (Meth.multiplyFused fuse s m w) ∧
      ∀ i j, ((F i j).Fin →
          (∀ l < (w.heap s).cols, ((w.heap s).val i l).Fin ∧ ((w.heap m).val l j).Fin) ∧
          |(F i j).rat - ∑ l ∈ Finset.range (w.heap s).cols, ((w.heap s).val i l).rat * ((w.heap m).val l j).rat| ≤
            ((1 + f.unit) ^ (w.heap s).cols - 1) *
              ∑ l ∈ Finset.range (w.heap s).cols, |((w.heap s).val i l).rat * ((w.heap m).val l j).rat| +
            (w.heap s).cols * (1 + f.unit) ^ (w.heap s).cols * f.tiny) ∧
        ((∀ l < (w.heap s).cols, ((w.heap s).val i l).Fin ∧ ((w.heap m).val l j).Fin) →
          (1 + f.unit) ^ (w.heap s).cols *
              ∑ l ∈ Finset.range (w.heap s).cols, |((w.heap s).val i l).rat * ((w.heap m).val l j).rat| +
            (w.heap s).cols * (1 + f.unit) ^ (w.heap s).cols * f.tiny ≤ f.big → (F i j).Fin) := by
  refine ⟨_, C87_returns fuse hsn hmn hs hm hk h1 hr hc, fun i j => ⟨fun hf => ?_, fun hf hb => ?_⟩⟩
  · rw [(Fl.keep_rat _ _).2] at hf
    rw [(Fl.keep_rat _ _).1]
    exact Fl.dotBy_err (fuse i j) _ _ _ hf
  · rw [(Fl.keep_rat _ _).2]
    exact Fl.dotBy_fin (fuse i j) _ _ _ hf hb

/-- C87: products of integers with `Σ|a||b| ≤ 2^prec` are exact on every machine. -/
theorem C87_integers (hsn : s < w.next) (hmn : m < w.next)
    (hs : (w.heap s).WF) (hm : (w.heap m).WF) (hk : (w.heap s).kind ≠ .svec ∧ (w.heap s).kind ≠ .dvec)
    (h1 : (w.heap m).rows = (w.heap s).cols) (hr : (w.heap s).RowsFit) (hc : (w.heap m).ColsFit) :
    ∃ F, Returns w (w.heap s).kind (w.heap s).rows (w.heap m).cols F (Meth.multiplyFused fuse s m w) ∧
      ∀ i j (A B : Nat → ℤ),
        (∀ l < (w.heap s).cols, ((w.heap s).val i l).Fin ∧ ((w.heap s).val i l).rat = A l) →
        (∀ l < (w.heap s).cols, ((w.heap m).val l j).Fin ∧ ((w.heap m).val l j).rat = B l) →
        ∑ l ∈ Finset.range (w.heap s).cols, |A l * B l| ≤ 2 ^ f.prec →
        (F i j).Fin ∧ (F i j).rat = ((∑ l ∈ Finset.range (w.heap s).cols, A l * B l : ℤ) : ℚ) := by
  refine ⟨_, C87_returns fuse hsn hmn hs hm hk h1 hr hc, fun i j A B hA hB hS => ?_⟩
  rw [(Fl.keep_rat _ _).2, (Fl.keep_rat _ _).1]
  exact Fl.dotBy_int (fuse i j) _ _ _ A B hA hB hS

/-- C87: with one column in `A` (an outer product) the machines agree, up to the sign of a product that underflows; and that is lost in a
compressed result. -/
theorem C87_outer (hsn : s < w.next) (hmn : m < w.next)
    (hs : (w.heap s).WF) (hm : (w.heap m).WF) (hk : (w.heap s).kind ≠ .svec ∧ (w.heap s).kind ≠ .dvec)
    (h1 : (w.heap m).rows = (w.heap s).cols) (hr : (w.heap s).RowsFit) (hc : (w.heap m).ColsFit) (hone : (w.heap s).cols = 1) :
    ∃ F G, Returns w (w.heap s).kind (w.heap s).rows (w.heap m).cols F (Meth.multiplyFused fuse s m w) ∧
      Returns w (w.heap s).kind (w.heap s).rows (w.heap m).cols G (Meth.multiply s m w) ∧
      ∀ i j, F i j = G i j ∨ ((w.heap s).kind = .dense ∧ F i j = Fl.negZero ∧ G i j = 0) := by
  refine ⟨_, _, C87_returns fuse hsn hmn hs hm hk h1 hr hc, C59_multiply_returns hsn hmn hs hm hk h1 hr hc, fun i j => ?_⟩
  rw [hone]
  show (w.heap s).keep (Fl.step (fuse i j 0) 0 ((w.heap s).val i 0) ((w.heap m).val 0 j)) =
      (w.heap s).keep (0 + (w.heap s).val i 0 * (w.heap m).val 0 j) ∨
    ((w.heap s).kind = .dense ∧ (w.heap s).keep (Fl.step (fuse i j 0) 0 ((w.heap s).val i 0) ((w.heap m).val 0 j)) = Fl.negZero ∧
      (w.heap s).keep (0 + (w.heap s).val i 0 * (w.heap m).val 0 j) = 0)
  cases fuse i j 0 with
  | false => exact Or.inl rfl
  | true =>
    show (w.heap s).keep (Fl.fma _ _ _) = _ ∨ (_ ∧ (w.heap s).keep (Fl.fma _ _ _) = _ ∧ _)
    rcases Fl.fma_zero ((w.heap s).val i 0) ((w.heap m).val 0 j) with e | ⟨e1, e2⟩
    · rw [e]; exact Or.inl rfl
    · rw [e1, e2]
      unfold Mat.keep
      cases hkk : (w.heap s).kind with
      | csr => left; simp [Fl.norm_eq]
      | csc => left; simp [Fl.norm_eq]
      | dense => right; exact ⟨rfl, rfl, rfl⟩
      | dvec => exact absurd hkk hk.2
      | svec => exact absurd hkk hk.1

/-- C87: where nothing is fused, the inner product of `(a, b)` and `(b, -a)` is exactly `+0`. -/
theorem C87_perpendicular (hsn : s < w.next) (hmn : m < w.next)
    (hs : (w.heap s).WF) (hm : (w.heap m).WF) (hk : (w.heap s).kind ≠ .svec ∧ (w.heap s).kind ≠ .dvec)
    (h1 : (w.heap m).rows = (w.heap s).cols) (hr : (w.heap s).RowsFit) (hc : (w.heap m).ColsFit) (htwo : (w.heap s).cols = 2) :
    ∃ G, Returns w (w.heap s).kind (w.heap s).rows (w.heap m).cols G (Meth.multiply s m w) ∧
      ∀ i j, (w.heap m).val 0 j = (w.heap s).val i 1 → (w.heap m).val 1 j = -(w.heap s).val i 0 →
        ((w.heap s).val i 0 * (w.heap s).val i 1).Fin → G i j = 0 := by
  refine ⟨_, C59_multiply_returns hsn hmn hs hm hk h1 hr hc, fun i j e0 e1 hf => ?_⟩
  rw [htwo]
  show (w.heap s).keep ((0 + (w.heap s).val i 0 * (w.heap m).val 0 j) + (w.heap s).val i 1 * (w.heap m).val 1 j) = 0
  rw [e0, e1]
  generalize (w.heap s).val i 0 = a at *
  generalize (w.heap s).val i 1 = b at *
  have hz : (0 + a * b) + b * -a = 0 := Fl.perp hf
  rw [hz]
  unfold Mat.keep
  cases (w.heap s).kind <;> rfl

end

/-! ## Concrete cases -/

namespace FloatEx

/-- `[[a, b], [1, 0]]` and `[[b, 1], [-a, 3]]` with `a = b = 1 + 2^-30`. -/
def perpW : World F64 :=
  World.of 9 [two [c (1 + 1 / 2 ^ 30), c (1 + 1 / 2 ^ 30)] [c 1, c 0],
    two [c (1 + 1 / 2 ^ 30), c 1] [-c (1 + 1 / 2 ^ 30), c 3]]

/-- Never fused: the inner product is 0. -/
example : out (Meth.multiply 0 1 perpW) 2 = some [[c 0, c (4 + 4 / 2 ^ 30)], [c (1 + 1 / 2 ^ 30), c 1]] := by decide +kernel

/-- Always fused: the second product is not rounded, and the error of the first one remains. -/
example : out (Meth.multiplyFused (fun _ _ _ => true) 0 1 perpW) 2 =
    some [[c (-1 / 2 ^ 60), c (4 + 4 / 2 ^ 30)], [c (1 + 1 / 2 ^ 30), c 1]] := by decide +kernel

/-- Fused at the first position only: nothing remains. -/
example : out (Meth.multiplyFused (fun _ _ l => l == 0) 0 1 perpW) 2 =
    some [[c 0, c (4 + 4 / 2 ^ 30)], [c (1 + 1 / 2 ^ 30), c 1]] := by decide +kernel

/-- The hypotheses of C87 are met, also those of its finiteness condition. -/
example : ∃ F, Returns perpW .dense 2 2 F (Meth.multiplyFused (fun _ _ _ => true) 0 1 perpW) ∧ (F 0 0).Fin := by
  obtain ⟨F, h1, h2⟩ := C87_multiply (fun _ _ _ => true) (w := perpW) (s := 0) (m := 1) (by decide) (by decide)
    ⟨rfl, fun r hr => by fin_cases hr <;> rfl⟩ ⟨rfl, fun r hr => by fin_cases hr <;> rfl⟩ ⟨by decide, by decide⟩ rfl
    (fun h => by cases h <;> contradiction) (fun h => by cases h <;> contradiction)
  have hf : ∀ x : F64, x.1 = .num x.rat → x.Fin := fun x h => by unfold Fl.Fin; rw [h]; trivial
  refine ⟨F, h1, (h2 0 0).2 (fun l hl => ?_) (by decide +kernel)⟩
  match l, hl with
  | 0, _ => exact ⟨hf _ (by decide +kernel), hf _ (by decide +kernel)⟩
  | 1, _ => exact ⟨hf _ (by decide +kernel), hf _ (by decide +kernel)⟩

/-- C87 in full: a product does not depend on the machine. -/
def MachinesAgree : Prop := ∀ (w : World F64) (s m : Ref) (fuse : Nat → Nat → Nat → Bool) (x y : List (List F64)),
  w.reg = initReg → s < w.next → m < w.next → (w.heap s).WF → (w.heap m).WF → (w.heap m).rows = (w.heap s).cols →
  out (Meth.multiply s m w) w.next = some x → out (Meth.multiplyFused fuse s m w) w.next = some y → x = y

/-- C87 in full: false. -/
theorem C87_refuted : ¬ MachinesAgree := by
  intro h
  have := h perpW 0 1 (fun _ _ _ => true) [[c 0, c (4 + 4 / 2 ^ 30)], [c (1 + 1 / 2 ^ 30), c 1]]
    [[c (-1 / 2 ^ 60), c (4 + 4 / 2 ^ 30)], [c (1 + 1 / 2 ^ 30), c 1]] rfl (by decide) (by decide)
    ⟨rfl, fun r hr => by fin_cases hr <;> rfl⟩ ⟨rfl, fun r hr => by fin_cases hr <;> rfl⟩ rfl (by decide +kernel) (by decide +kernel)
  exact absurd this (by decide +kernel)

/-- C87: a negative product that underflows: `-0` where it is fused, `+0` where it is not. -/
example : out (Meth.multiplyFused (fun _ _ _ => true) 0 1
      (World.of 9 [two [c (1 / 2 ^ 1000)] [c 2], .dense ⟨1, 2, [[c (-1 / 2 ^ 1000), c 1]]⟩])) 2 =
    some [[Fl.negZero, c (1 / 2 ^ 1000)], [c (-1 / 2 ^ 999), c 2]] := by decide +kernel
example : out (Meth.multiply 0 1
      (World.of 9 [two [c (1 / 2 ^ 1000)] [c 2], .dense ⟨1, 2, [[c (-1 / 2 ^ 1000), c 1]]⟩])) 2 =
    some [[c 0, c (1 / 2 ^ 1000)], [c (-1 / 2 ^ 999), c 2]] := by decide +kernel

/-- `C87_absorbs`: the product is finite but beyond the format; rounded on its own it would be an infinity. -/
example : Fl.fma (c (2 ^ 1023)) (c 2) (Fl.inf true) = Fl.inf true ∧ c (2 ^ 1023) * c 2 + Fl.inf true = Fl.nan := by decide +kernel

/-- `C87_limits`: fusing avoids the overflow of a product. -/
example : Fl.fma (c (2 ^ 1023)) (c 2) (c (-2 ^ 1023)) = c (2 ^ 1023) ∧ c (2 ^ 1023) * c 2 + c (-2 ^ 1023) = Fl.inf false := by
  decide +kernel

/-- `C87_exceptional`: the signs of zeros. -/
example : Fl.fma (c (-3)) (c 0) Fl.negZero = Fl.negZero ∧ Fl.fma (c (-3)) (c 0) (c 0) = c 0 := by decide +kernel

end FloatEx

end GB
