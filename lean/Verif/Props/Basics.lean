import Verif.Lemmas.Registry
import Verif.Lemmas.History
import Verif.Lemmas.Ext
import Verif.Model.OpPkg
import Verif.Model.Registry
import Verif.Model.Context
import Verif.KernelRfl

/-!
# Registry, ReSize, mask elements, operators, context: C42, C43, C44, C45, C49
-/

namespace GB

set_option linter.unusedSectionVars false

/-! ## C42 -/

/-- Is the dynamic type one of the sparse formats? -/
def Mat.isSparseFormat {T : Type} : Mat T → Bool
  | .csr _ | .csc _ | .svec _ => true
  | .dense _ | .dvec _ => false

/-- C42 in full, first half. -/
def RegistryExact (T : Type) [GoNum T] : Prop :=
  ∀ m : Mat T, Registry.isSparse initReg m = m.isSparseFormat

/-- C42, first half, the part that holds: after package initialisation the sparse formats are recognised,
and nothing else, for elements of type `float64`. For every other element type nothing is recognised.
Missing: recognising the sparse formats of the other element types (`C42_refuted`). -/
theorem C42_isSparse_partial {T : Type} [GoNum T] (m : Mat T) :
    Registry.isSparse initReg m = (m.isSparseFormat && decide (GoNum.gname T = "float64")) := by
  rw [Bool.eq_iff_iff]
  unfold Registry.isSparse
  rw [decide_eq_true_iff, typeName_initReg, Bool.and_eq_true, decide_eq_true_iff]
  cases m <;> rfl

/-- C42, first half, for `float64`: exact. -/
theorem C42_float64 : RegistryExact ℚ := by
  intro m
  rw [C42_isSparse_partial, show decide (GoNum.gname ℚ = "float64") = true from decide_eq_true rfl, Bool.and_true]

/-- C42, first half, in full: false, e.g. for `int` elements. -/
theorem C42_refuted : ¬ RegistryExact ℤ := by
  intro h
  have h1 := h (.csr (CSR.new 1 1))
  rw [C42_isSparse_partial] at h1
  exact absurd h1 (by decide +kernel)

/-- C42, second half: in every history of `RegisterMatrix` calls (with recovered panics) the registry
ends with exactly the initial names and the names passed, and a call panics exactly when its name was
there before — initially or through an earlier call. -/
theorem C42_registration_history (reg : List String) (ns : List String) :
    (∀ n, n ∈ (Registry.run reg ns).2 ↔ n ∈ reg ∨ n ∈ ns) ∧
    (Registry.run reg ns).1.length = ns.length ∧
    ∀ k (hk : k < ns.length), (Registry.run reg ns).1[k]? = some true ↔ ns[k] ∈ reg ∨ ns[k] ∈ ns.take k := by
  induction ns generalizing reg with
  | nil => simp [Registry.run]
  | cons a ns ih =>
    unfold Registry.run Registry.register
    by_cases h : a ∈ reg
    · simp only [h, if_true]
      obtain ⟨h1, h2, h3⟩ := ih reg
      refine ⟨?_, by simp [h2], ?_⟩
      · intro n
        rw [h1, List.mem_cons]
        constructor
        · rintro (h | h) <;> simp [h]
        · rintro (h' | rfl | h') <;> simp_all
      · intro k hk
        cases k with
        | zero => simp [h]
        | succ k =>
          have hk : k < ns.length := by simpa using hk
          simp only [List.getElem?_cons_succ, List.getElem_cons_succ, List.take_succ_cons, List.mem_cons]
          rw [h3 k hk]
          constructor
          · rintro (h | h) <;> simp [h]
          · rintro (h' | h' | h')
            · exact Or.inl h'
            · exact Or.inl (h' ▸ h)
            · exact Or.inr h'
    · simp only [h, if_false]
      obtain ⟨h1, h2, h3⟩ := ih (a :: reg)
      refine ⟨?_, by simp [h2], ?_⟩
      · intro n
        rw [h1, List.mem_cons, List.mem_cons]
        tauto
      · intro k hk
        cases k with
        | zero => simp [h]
        | succ k =>
          have hk : k < ns.length := by simpa using hk
          simp only [List.getElem?_cons_succ, List.getElem_cons_succ, List.take_succ_cons, List.mem_cons]
          rw [h3 k hk, List.mem_cons]
          tauto

/-- C42: a rejected registration leaves the registry as it was; an accepted one adds exactly its name. -/
theorem C42_register (reg : List String) (n : String) :
    (n ∈ reg → Registry.register reg n = .panic ∧ Registry.run reg [n] = ([true], reg)) ∧
    (n ∉ reg → ∃ reg', Registry.register reg n = .ok reg' ∧ ∀ x, x ∈ reg' ↔ x = n ∨ x ∈ reg) := by
  constructor
  · intro h; simp [Registry.register, Registry.run, h]
  · intro h; exact ⟨n :: reg, by simp [Registry.register, h], by simp⟩

/-- A history with two accepted names and a rejected one. -/
example : (Registry.run initReg ["CSRMatrix[int]", "CSRMatrix[float64]", "CSRMatrix[int]"]).1 = [false, true, true] := by
  decide +kernel

/-! ## C43 -/

section
variable {T : Type} [GoNum T]

/-- C43 in full: `ReSize(n)` returns `n`, sets the length to `n`, keeps the first `min n l` elements and
zero-fills the rest. -/
def ReSizeCorrect (s : DVec T) (n : Nat) : Prop :=
  ∃ s', s.reSize n = .ok (s', n) ∧ s'.l = n ∧ ∀ i : Nat, i < n → s'.atVec i = if i < s.l then s.atVec i else .ok 0

theorem DVec.atVec_eq {s : DVec T} (h : s.values.length = s.l) (i : Nat) (hi : i < s.l) :
    s.atVec i = .ok (s.values[i]'(by omega)) := by
  unfold DVec.atVec
  simp only [inRange_natCast, hi, decide_true, if_true, Int.toNat_natCast]
  exact idx_ok (by omega)

/-- C43, the part that holds: growing, keeping the size, and shrinking to exactly half the length.
Missing: every other shrink (`C43_refuted`, `C43_shrink`). -/
theorem C43_resize_partial {s : DVec T} (h : (Mat.dvec s).WF) {n : Nat} (hn : s.l ≤ n ∨ 2 * n = s.l) :
    ReSizeCorrect s n := by
  have h : s.values.length = s.l := h
  unfold ReSizeCorrect DVec.reSize
  by_cases h1 : n > s.l
  · simp only [h1, if_true]
    have hl : (s.values ++ List.replicate (n - s.l) (0 : T)).length = n := by simp; omega
    refine ⟨⟨_, s.values ++ List.replicate (n - s.l) (0 : T)⟩, by rw [hl], rfl, ?_⟩
    intro i hi
    rw [DVec.atVec_eq (by simp; omega) i (by simpa using hi)]
    by_cases h2 : i < s.l
    · rw [if_pos h2, DVec.atVec_eq h i h2]
      simp only [Out.ok.injEq]
      rw [List.getElem_append_left]
    · rw [if_neg h2]
      simp only [Out.ok.injEq]
      rw [List.getElem_append_right (by omega), List.getElem_replicate]
  · simp only [h1, if_false]
    by_cases h2 : n < s.l
    · have e : s.l - n = n := by omega
      have h3 : n ≤ s.values.length := by omega
      have hl : (s.values.take n).length = n := by simp; omega
      simp only [h2, if_true, e, h3]
      refine ⟨⟨_, s.values.take n⟩, by rw [hl], rfl, ?_⟩
      intro i hi
      rw [DVec.atVec_eq hl i (by simp; omega), if_pos (by omega), DVec.atVec_eq h i (by omega)]
      simp
    · have e : n = s.l := by omega
      simp only [h2, if_false]
      refine ⟨⟨_, s.values⟩, by rw [h, e], h.trans e.symm, ?_⟩
      intro i hi
      rw [DVec.atVec_eq rfl i (by simp; omega), if_pos (by omega), DVec.atVec_eq h i (by omega)]

/-- What `ReSize` really does when it shrinks: it keeps the first `l - n` elements. -/
theorem C43_shrink {s : DVec T} (h : (Mat.dvec s).WF) {n : Nat} (hn : n < s.l) :
    ∃ s', s.reSize n = .ok (s', s.l - n) ∧ s'.l = s.l - n ∧ (Mat.dvec s').WF ∧
      ∀ i : Nat, i < s.l - n → s'.atVec i = s.atVec i := by
  have h : s.values.length = s.l := h
  unfold DVec.reSize
  have h3 : s.l - n ≤ s.values.length := by omega
  have hl : (s.values.take (s.l - n)).length = s.l - n := by simp; omega
  simp only [show ¬ n > s.l by omega, if_false, hn, if_true, h3]
  refine ⟨⟨_, s.values.take (s.l - n)⟩, by rw [hl], hl, rfl, ?_⟩
  intro i hi
  rw [DVec.atVec_eq rfl i (by simp; omega), DVec.atVec_eq h i (by omega)]
  simp

end

/-- C43, full statement: false. Shrinking a vector of 3 elements to 1 gives one of 2 elements. -/
theorem C43_refuted : ¬ ∀ (s : DVec ℤ) (n : Nat), (Mat.dvec s).WF → ReSizeCorrect s n := by
  intro h
  obtain ⟨s', h1, h2, -⟩ := h { l := 3, values := [1, 2, 3] } 1 rfl
  have : DVec.reSize ({ l := 3, values := [1, 2, 3] } : DVec ℤ) 1 = .ok ({ l := 2, values := [1, 2] }, 2) := by
    decide +kernel
  rw [this] at h1
  injection h1 with h1
  have h3 : (2 : Nat) = 1 := congrArg Prod.snd h1
  exact absurd h3 (by decide)

/-- Growing by two, and halving. -/
example : DVec.reSize ({ l := 2, values := [7, 8] } : DVec ℤ) 4 = .ok ({ l := 4, values := [7, 8, 0, 0] }, 4) ∧
    DVec.reSize ({ l := 4, values := [1, 2, 3, 4] } : DVec ℤ) 2 = .ok ({ l := 2, values := [1, 2] }, 2) := by
  decide +kernel

/-! ## C44 -/

/-- C44 in full: `Element(r, c)` is true exactly when the value `At(r, c)` is not zero. -/
def ElementIsNonzero (T : Type) [GoNum T] : Prop :=
  ∀ (m : Mat T) (i j : Nat), Reach m → i < m.rows → j < m.cols →
    ∃ b v, m.element i j = .ok (b, m) ∧ m.at' i j = .ok (v, m) ∧ (b = true ↔ v ≠ 0)

/-- C44, the part that holds for every ordered element type: `Element` is true exactly when the value is
positive, for every format and every history. Missing: negative values (`C44_refuted`). -/
theorem C44_element_partial {T : Type} [GoNum T] [GoStore T] [LinearOrder T] [GoOrd T] {m : Mat T} (hm : Reach m) {i j : Nat}
    (hi : i < m.rows) (hj : j < m.cols) :
    ∃ b v, m.element i j = .ok (b, m) ∧ m.at' i j = .ok (v, m) ∧ (b = true ↔ 0 < v) :=
  ⟨_, _, Mat.Inv.element_ok hm.inv hi hj, Mat.Inv.at_ok hm.inv hi hj, GoOrd.lt_iff _ _⟩

/-- C44 for the unsigned integer types, in full. -/
theorem C44_unsigned (w : Nat) : ElementIsNonzero (USInt w) := by
  intro m i j hm hi hj
  obtain ⟨b, v, h1, h2, h3⟩ := C44_element_partial hm hi hj
  refine ⟨b, v, h1, h2, h3.trans ?_⟩
  have h0 : (0 : USInt w) ≤ v := by
    show BitVec.toNat (0 : BitVec w) ≤ BitVec.toNat v
    simp
  exact ⟨fun h => (ne_of_gt h), fun h => lt_of_le_of_ne h0 (Ne.symm h)⟩

/-- C44, full statement: false for signed elements; -1 is not zero and its `Element` is false. -/
theorem C44_refuted : ¬ ElementIsNonzero (SInt 64) := by
  intro h
  have hr : Reach (.dvec (DVec.fromArray [(-1 : SInt 64)])) := Reach.arrDVec _
  obtain ⟨b, v, h1, h2, h3⟩ := h _ 0 0 hr (by decide) (by decide)
  have e1 : (Mat.dvec (DVec.fromArray [(-1 : SInt 64)])).element (0 : Nat) (0 : Nat) =
      .ok (false, .dvec (DVec.fromArray [(-1 : SInt 64)])) := by decide +kernel
  have e2 : (Mat.dvec (DVec.fromArray [(-1 : SInt 64)])).at' (0 : Nat) (0 : Nat) =
      .ok (-1, .dvec (DVec.fromArray [(-1 : SInt 64)])) := by decide +kernel
  rw [e1] at h1
  rw [e2] at h2
  injection h1 with h1
  injection h2 with h2
  have hb : b = false := (congrArg Prod.fst h1).symm
  have hv : v = -1 := (congrArg Prod.fst h2).symm
  subst hb hv
  exact absurd (h3.2 (by decide)) (by decide)

/-- A history meeting the hypotheses of `C44_unsigned`: a CSR matrix with one entry. -/
example : ((Mat.csr (CSR.new 2 2) : Mat (USInt 8)).run [.set 0 1 200]).bind (fun m => m.element (0 : Nat) (1 : Nat)) =
    .ok (true, .csr { r := 2, c := 2, values := [200], cols := [1], rowStart := [0, 1, 1] }) := by decide +kernel

/-! ## C45 -/

section
open OpPkg

/-- C45: addition with its default unit is a commutative monoid, for every element type whose `+` is a
ring's (all integer types, wrap-around included). -/
theorem C45_addition_monoid {T : Type} [GoRing T] (x y z : T) :
    addition (addition x y) z = addition x (addition y z) ∧ addition x y = addition y x ∧
    addition (MonoID.addition T).unit x = x ∧ addition x (MonoID.addition T).unit = x ∧
    (MonoID.addition T).op x y = x + y :=
  ⟨add_assoc x y z, add_comm x y, zero_add x, add_zero x, rfl⟩

/-- C45: subtraction undoes addition and multiplication is a commutative monoid distributing over
addition. -/
theorem C45_arithmetic {T : Type} [GoRing T] (x y z : T) :
    subtraction (addition x y) y = x ∧ addition (subtraction x y) y = x ∧
    multiplication x y = multiplication y x ∧
    multiplication (multiplication x y) z = multiplication x (multiplication y z) ∧
    multiplication x (addition y z) = addition (multiplication x y) (multiplication x z) :=
  ⟨add_sub_cancel_right x y, sub_add_cancel x y, mul_comm x y, mul_assoc x y z, mul_add x y z⟩

/-- C45: over a field, division undoes multiplication by a non-zero value. -/
theorem C45_division {T : Type} [GoField T] (x y : T) (h : y ≠ 0) :
    division (multiplication x y) y = .ok x := by
  unfold division multiplication
  have e : GoNum.gdiv (x * y) y = some (x * y / y) := GoField.div_eq _ _ h
  rw [e, mul_div_cancel_right₀ _ h]

/-- C45: for the signed and unsigned integer types, division by zero panics and division by anything else
returns the quotient, truncated toward zero (the most negative number divided by -1 wraps around). -/
theorem C45_integer_division (w : Nat) :
    (∀ x y : SInt w, division x y = .panic ↔ y = 0) ∧ (∀ x y : USInt w, division x y = .panic ↔ y = 0) ∧
    (∀ x y : USInt w, y ≠ 0 → ∃ q, division x y = .ok q ∧ BitVec.toNat q = BitVec.toNat x / BitVec.toNat y) ∧
    (∀ x y : SInt w, y ≠ 0 → ∃ q, division x y = .ok q ∧
      BitVec.toInt q = ((BitVec.toInt x).tdiv (BitVec.toInt y)).bmod (2 ^ w)) := by
  have e1 : ∀ x y : SInt w, GoNum.gdiv x y = if y = 0 then none else some (BitVec.sdiv x y) := fun _ _ => rfl
  have e2 : ∀ x y : USInt w, GoNum.gdiv x y = if y = 0 then none else some (BitVec.udiv x y) := fun _ _ => rfl
  refine ⟨?_, ?_, ?_, ?_⟩
  · intro x y
    unfold division
    rw [e1]
    by_cases h : y = 0 <;> simp [h]
  · intro x y
    unfold division
    rw [e2]
    by_cases h : y = 0 <;> simp [h]
  · intro x y h
    refine ⟨BitVec.udiv x y, ?_, BitVec.toNat_udiv⟩
    unfold division
    rw [e2, if_neg h]
  · intro x y h
    refine ⟨BitVec.sdiv x y, ?_, BitVec.toInt_sdiv x y⟩
    unfold division
    rw [e1, if_neg h]

/-- C45: the arithmetic of the integer types is that of the integers modulo `2 ^ w`, and the comparisons are those of the
integers: signed numbers between `-2 ^ (w - 1)` and `2 ^ (w - 1) - 1`, unsigned ones below `2 ^ w`. -/
theorem C45_wraps (w : Nat) :
    (∀ x y : SInt w, BitVec.toInt (addition (T := SInt w) x y) = (BitVec.toInt x + BitVec.toInt y).bmod (2 ^ w) ∧
      BitVec.toInt (subtraction (T := SInt w) x y) = (BitVec.toInt x - BitVec.toInt y).bmod (2 ^ w) ∧
      BitVec.toInt (multiplication (T := SInt w) x y) = (BitVec.toInt x * BitVec.toInt y).bmod (2 ^ w) ∧
      (lessThan x y = true ↔ BitVec.toInt x < BitVec.toInt y) ∧ (equal x y = true ↔ BitVec.toInt x = BitVec.toInt y)) ∧
    (∀ x y : USInt w, BitVec.toNat (addition (T := USInt w) x y) = (BitVec.toNat x + BitVec.toNat y) % 2 ^ w ∧
      (BitVec.toNat (subtraction (T := USInt w) x y) : Int) = ((BitVec.toNat x : Int) - BitVec.toNat y) % 2 ^ w ∧
      BitVec.toNat (multiplication (T := USInt w) x y) = (BitVec.toNat x * BitVec.toNat y) % 2 ^ w ∧
      (lessThan x y = true ↔ BitVec.toNat x < BitVec.toNat y) ∧ (equal x y = true ↔ BitVec.toNat x = BitVec.toNat y)) := by
  refine ⟨fun x y => ⟨BitVec.toInt_add x y, BitVec.toInt_sub, BitVec.toInt_mul x y, ?_, ?_⟩,
    fun x y => ⟨BitVec.toNat_add x y, ?_, BitVec.toNat_mul x y, ?_, ?_⟩⟩
  · exact BitVec.slt_iff_toInt_lt
  · exact decide_eq_true_iff.trans BitVec.toInt_inj.symm
  · have h : BitVec.toNat (subtraction (T := USInt w) x y) = (2 ^ w - BitVec.toNat y + BitVec.toNat x) % 2 ^ w := BitVec.toNat_sub x y
    have hy : BitVec.toNat y < 2 ^ w := BitVec.isLt y
    rw [h, Int.natCast_mod, Int.natCast_add, Int.ofNat_sub hy.le]
    push_cast
    rw [show (2 : Int) ^ w - BitVec.toNat y + BitVec.toNat x = (BitVec.toNat x - BitVec.toNat y : Int) + 2 ^ w by omega,
      Int.add_emod_right]
  · exact BitVec.ult_iff_toNat_lt
  · exact decide_eq_true_iff.trans BitVec.toNat_inj.symm

variable {T : Type} [GoNum T] [LinearOrder T] [GoOrd T]

/-- C45: `Minimum` and `Maximum` are the minimum and maximum of the order. -/
theorem C45_min_max (x y : T) : minimum x y = min x y ∧ maximum x y = max x y := by
  constructor
  · unfold minimum
    rcases lt_or_ge x y with h | h
    · rw [if_pos ((GoOrd.lt_iff x y).2 h), min_eq_left h.le]
    · rw [if_neg (fun h' => absurd ((GoOrd.lt_iff x y).1 h') (not_lt.2 h)), min_eq_right h]
  · unfold maximum
    rcases lt_or_ge y x with h | h
    · rw [if_pos ((GoOrd.lt_iff y x).2 h), max_eq_left h.le]
    · rw [if_neg (fun h' => absurd ((GoOrd.lt_iff y x).1 h') (not_lt.2 h)), max_eq_right h]

/-- C45: `Minimum` and `Maximum` are associative, commutative and idempotent, return one of their
arguments, and absorb each other. -/
theorem C45_min_max_laws (x y z : T) :
    (minimum (minimum x y) z = minimum x (minimum y z) ∧ maximum (maximum x y) z = maximum x (maximum y z)) ∧
    (minimum x y = minimum y x ∧ maximum x y = maximum y x) ∧ (minimum x x = x ∧ maximum x x = x) ∧
    ((minimum x y = x ∨ minimum x y = y) ∧ (maximum x y = x ∨ maximum x y = y)) ∧
    (minimum x (maximum x y) = x ∧ maximum x (minimum x y) = x) := by
  simp only [fun a b : T => (C45_min_max a b).1, fun a b : T => (C45_min_max a b).2]
  exact ⟨⟨min_assoc x y z, max_assoc x y z⟩, ⟨min_comm x y, max_comm x y⟩, ⟨min_self x, max_self x⟩,
    ⟨min_choice x y, max_choice x y⟩, ⟨inf_sup_self, sup_inf_self⟩⟩

/-- C45: the comparison operators agree with the order and are mutually consistent. -/
theorem C45_comparisons [GoLawful T] (x y : T) :
    (equal x y = true ↔ x = y) ∧ (notEqual x y = true ↔ x ≠ y) ∧ (lessThan x y = true ↔ x < y) ∧
    (greaterThan x y = true ↔ y < x) ∧ (lessThanOrEqual x y = true ↔ x ≤ y) ∧ (greaterThanOrEqual x y = true ↔ y ≤ x) ∧
    (notEqual x y = !equal x y) ∧ (greaterThan x y = lessThan y x) ∧ (greaterThanOrEqual x y = !lessThan x y) ∧
    (lessThanOrEqual x y = !greaterThan x y) := by
  have he : equal x y = true ↔ x = y := GoLawful.eq_iff x y
  have hl : ∀ a b : T, lessThan a b = true ↔ a < b := fun a b => GoOrd.lt_iff a b
  have hg : greaterThan x y = true ↔ y < x := GoOrd.lt_iff y x
  have hle : lessThanOrEqual x y = true ↔ x ≤ y := by
    unfold lessThanOrEqual
    rw [Bool.or_eq_true, GoOrd.lt_iff, GoLawful.eq_iff, le_iff_lt_or_eq]
  have hge : greaterThanOrEqual x y = true ↔ y ≤ x := by
    unfold greaterThanOrEqual
    rw [Bool.or_eq_true, GoOrd.lt_iff, GoLawful.eq_iff, le_iff_lt_or_eq, eq_comm (a := x)]
  refine ⟨he, ?_, hl x y, hg, hle, hge, rfl, rfl, ?_, ?_⟩
  · unfold notEqual; rw [Bool.not_eq_true', Bool.eq_false_iff, ne_eq, GoLawful.eq_iff]
  · rw [Bool.eq_iff_iff, hge, Bool.not_eq_true', Bool.eq_false_iff, ne_eq, hl, not_lt]
  · rw [Bool.eq_iff_iff, hle, Bool.not_eq_true', Bool.eq_false_iff, ne_eq, hg, not_lt]

/-- C45: the logical operators satisfy the laws of a Boolean algebra, and XOR is addition modulo 2. -/
theorem C45_boolean (x y z : Bool) :
    lor x y = lor y x ∧ land x y = land y x ∧ lor (lor x y) z = lor x (lor y z) ∧ land (land x y) z = land x (land y z) ∧
    lor x (land x y) = x ∧ land x (lor x y) = x ∧ lor x (land y z) = land (lor x y) (lor x z) ∧
    land x (lor y z) = lor (land x y) (land x z) ∧ lor x (logicalInverse x) = true ∧ land x (logicalInverse x) = false ∧
    lor x false = x ∧ land x true = x ∧ logicalInverse (lor x y) = land (logicalInverse x) (logicalInverse y) ∧
    logicalInverse (logicalInverse x) = x ∧
    lxor x y = lor (land x (logicalInverse y)) (land (logicalInverse x) y) ∧ lxor (lxor x y) y = x := by
  cases x <;> cases y <;> cases z <;> decide

/-- C45: the projections. -/
theorem C45_projections (x y : T) : firstArgument x y = x ∧ secondArgument x y = y := ⟨rfl, rfl⟩

end

/-- `C45_addition_monoid` covers wrap-around, `C45_min_max` the signed order. -/
example : OpPkg.addition (200 : USInt 8) 100 = 44 ∧ OpPkg.minimum (127 : SInt 8) 128 = 128 ∧
    OpPkg.minimum (127 : USInt 8) 128 = 127 := by decide +kernel

/-! ## C49 -/

/-- C49: `BlockingMode` gives back the mode and `true` for a context made by `NewContext`, whatever its
parent (itself possibly made by `NewContext`), and `(Blocking, false)` for every other context. -/
theorem C49_round_trip (ctx : Ctx) (mode : Mode) : (ctx.newContext mode).blockingMode = (mode, true) := rfl

theorem C49_other (ctx : Ctx) (h : ¬ ∃ parent mode, ctx = Ctx.newContext parent mode) :
    ctx.blockingMode = (Mode.blocking, false) := by
  cases ctx with
  | other k c p => rfl
  | graph p m => exact absurd ⟨p, m, rfl⟩ h

/-- C49: the second result tells exactly whether the context was made by `NewContext`. -/
theorem C49_iff (ctx : Ctx) : ctx.blockingMode.2 = true ↔ ∃ parent mode, ctx = Ctx.newContext parent mode := by
  cases ctx with
  | other k c p => simp [Ctx.blockingMode, Ctx.newContext]
  | graph p m => simp [Ctx.blockingMode, Ctx.newContext]

/-- C49: the two modes are told apart, and a context without a mode is taken for a blocking one. -/
theorem C49_modes (ctx : Ctx) : (ctx.newContext Mode.blocking).blockingMode ≠ (ctx.newContext Mode.nonBlocking).blockingMode ∧
    ∀ k c p, ((Ctx.other k c p).blockingMode).1 = ((ctx.newContext Mode.blocking).blockingMode).1 :=
  ⟨by rw [C49_round_trip, C49_round_trip]; decide, fun _ _ _ => rfl⟩

/-- C49: wrapping does not change whether the context is cancelled. -/
theorem C49_done (ctx : Ctx) (mode : Mode) : (ctx.newContext mode).done = ctx.done := by
  unfold Ctx.newContext; rw [Ctx.done]

/-- The outermost mode wins; a context derived from a wrapped one is not itself wrapped. -/
example : ((Ctx.newContext (.other 0 false none) Mode.nonBlocking).newContext 7).blockingMode = (7, true) ∧
    (Ctx.other 1 false (some (Ctx.newContext (.other 0 true none) Mode.nonBlocking))).blockingMode = (0, false) ∧
    (Ctx.other 1 false (some (Ctx.newContext (.other 0 true none) Mode.nonBlocking))).done = true := by
  refine ⟨rfl, rfl, ?_⟩
  simp [Ctx.done, Ctx.newContext]

end GB
