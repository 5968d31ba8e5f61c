import Verif.Props.ReduceAny
import Verif.Lemmas.Float
import Mathlib.Order.WithBot

/-!
# The order of the floating-point types: C82

The comparison operators, `Minimum` and `Maximum`, and the reduction built on `Maximum`, for `float32` and
`float64`, NaN, infinities and signed zeros included.
-/

namespace GB

set_option linter.unusedSectionVars false

open OpPkg

/-- The extended number line: the rational numbers, `-∞` and `+∞`. -/
abbrev Line := WithBot (WithTop ℚ)

/-- The place on the extended number line: of both zeros 0. NaN has none (and is put at 0). -/
def Raw.line : Raw → Line
  | .inf true => ⊥
  | .inf false => ((⊤ : WithTop ℚ) : Line)
  | y => ((y.val : WithTop ℚ) : Line)

section
variable {f : Fmt}

/-- The place on the extended number line. -/
def Fl.line (x : Fl f) : Line := x.1.line

theorem Fl.ne_nan {x : Fl f} : x ≠ Fl.nan ↔ x.1 ≠ .nan :=
  ⟨fun h e => h (Fl.ext e), fun h e => h (by rw [e]; rfl)⟩

/-- C82. `<` is the order of the extended number line; NaN is neither below nor above anything. -/
theorem C82_less (x y : Fl f) : lessThan x y = true ↔ x ≠ Fl.nan ∧ y ≠ Fl.nan ∧ x.line < y.line := by
  rw [Fl.ne_nan, Fl.ne_nan]
  show Raw.lt x.1 y.1 = true ↔ _ ∧ _ ∧ x.1.line < y.1.line
  rcases x.1 with _ | a | a | p <;> rcases y.1 with _ | b | b | q <;>
    (try cases a) <;> (try cases b) <;>
    simp [Raw.lt, Raw.line, Raw.val, WithBot.bot_lt_coe, WithBot.coe_lt_coe] <;>
    first
    | exact decide_eq_true_iff
    | exact WithBot.coe_lt_coe.2 (WithTop.coe_lt_top _)

/-- C82. `==` is equality on the extended number line; NaN is not even equal to itself. -/
theorem C82_equal (x y : Fl f) : equal x y = true ↔ x ≠ Fl.nan ∧ y ≠ Fl.nan ∧ x.line = y.line := by
  rw [Fl.ne_nan, Fl.ne_nan]
  show Raw.eq x.1 y.1 = true ↔ _ ∧ _ ∧ x.1.line = y.1.line
  rcases x.1 with _ | a | a | p <;> rcases y.1 with _ | b | b | q <;>
    (try cases a) <;> (try cases b) <;>
    simp [Raw.eq, Raw.line, Raw.val] <;>
    first
    | exact eq_comm
    | exact fun h => absurd (WithBot.coe_inj.1 h) (WithTop.coe_ne_top (a := (0 : ℚ))).symm
    | exact fun h => absurd (WithBot.coe_inj.1 h) (WithTop.coe_ne_top (a := (0 : ℚ)))

/-- C82. The other comparisons: each is the one its name says, on numbers; of NaN only `NotEqual` holds. -/
theorem C82_comparisons (x y : Fl f) :
    (notEqual x y = true ↔ x = Fl.nan ∨ y = Fl.nan ∨ x.line ≠ y.line) ∧
    (greaterThan x y = true ↔ x ≠ Fl.nan ∧ y ≠ Fl.nan ∧ y.line < x.line) ∧
    (lessThanOrEqual x y = true ↔ x ≠ Fl.nan ∧ y ≠ Fl.nan ∧ x.line ≤ y.line) ∧
    (greaterThanOrEqual x y = true ↔ x ≠ Fl.nan ∧ y ≠ Fl.nan ∧ y.line ≤ x.line) := by
  have hl := C82_less x y
  have hg := C82_less y x
  have he := C82_equal x y
  refine ⟨?_, ?_, ?_, ?_⟩
  · unfold notEqual
    unfold equal at he
    rw [Bool.not_eq_true', Bool.eq_false_iff, ne_eq, he]
    tauto
  · unfold greaterThan
    unfold lessThan at hg
    rw [hg]; tauto
  · unfold lessThanOrEqual
    unfold lessThan at hl
    unfold equal at he
    rw [Bool.or_eq_true, hl, he, le_iff_lt_or_eq]
    tauto
  · unfold greaterThanOrEqual
    unfold lessThan at hg
    unfold equal at he
    rw [Bool.or_eq_true, hg, he, le_iff_lt_or_eq, eq_comm (a := y.line)]
    tauto

/-- C82. `Minimum` and `Maximum` of two numbers: the lesser and the greater one; of two equal ones (the zeros) the second.
If one of them is NaN: the second, whichever of them it is. -/
theorem C82_min_max (x y : Fl f) :
    (x ≠ Fl.nan → y ≠ Fl.nan → maximum x y = (if y.line < x.line then x else y) ∧
      minimum x y = (if x.line < y.line then x else y)) ∧
    (x = Fl.nan ∨ y = Fl.nan → maximum x y = y ∧ minimum x y = y) := by
  have hl := C82_less x y
  have hg := C82_less y x
  unfold lessThan at hl hg
  constructor
  · intro hx hy
    unfold maximum minimum
    constructor
    · by_cases h : y.line < x.line
      · rw [if_pos h, if_pos (hg.2 ⟨hy, hx, h⟩)]
      · rw [if_neg h, if_neg (fun h' => h (hg.1 h').2.2)]
    · by_cases h : x.line < y.line
      · rw [if_pos h, if_pos (hl.2 ⟨hx, hy, h⟩)]
      · rw [if_neg h, if_neg (fun h' => h (hl.1 h').2.2)]
  · intro h
    unfold maximum minimum
    constructor
    · rw [if_neg]
      intro h'
      have := hg.1 h'
      tauto
    · rw [if_neg]
      intro h'
      have := hl.1 h'
      tauto

/-- C82 in full, the laws: `Maximum` is associative and commutative on floats. -/
def MaxLaws (f : Fmt) : Prop := (∀ x y z : Fl f, maximum (maximum x y) z = maximum x (maximum y z)) ∧
  ∀ x y : Fl f, maximum x y = maximum y x

/-- C82: without NaN, `Maximum` and `Minimum` are associative, idempotent, and commutative up to `==`.

Missing: NaN (`C82_laws_refuted`) and, for commutativity, the sign of zero. -/
theorem C82_laws_partial {x y z : Fl f} (hx : x ≠ Fl.nan) (hy : y ≠ Fl.nan) (hz : z ≠ Fl.nan) :
    (maximum (maximum x y) z = maximum x (maximum y z) ∧ minimum (minimum x y) z = minimum x (minimum y z)) ∧
    (maximum x x = x ∧ minimum x x = x) ∧
    (equal (maximum x y) (maximum y x) = true ∧ equal (minimum x y) (minimum y x) = true) := by
  have mx : ∀ {a b : Fl f}, a ≠ Fl.nan → b ≠ Fl.nan → maximum a b = if b.line < a.line then a else b :=
    fun ha hb => ((C82_min_max _ _).1 ha hb).1
  have mn : ∀ {a b : Fl f}, a ≠ Fl.nan → b ≠ Fl.nan → minimum a b = if a.line < b.line then a else b :=
    fun ha hb => ((C82_min_max _ _).1 ha hb).2
  have nx : ∀ {a b : Fl f}, a ≠ Fl.nan → b ≠ Fl.nan → maximum a b ≠ Fl.nan := by
    intro a b ha hb; rw [mx ha hb]; split <;> assumption
  have nn : ∀ {a b : Fl f}, a ≠ Fl.nan → b ≠ Fl.nan → minimum a b ≠ Fl.nan := by
    intro a b ha hb; rw [mn ha hb]; split <;> assumption
  refine ⟨⟨?_, ?_⟩, ⟨?_, ?_⟩, ?_, ?_⟩
  · rw [mx (nx hx hy) hz, mx hx (nx hy hz), mx hx hy, mx hy hz]
    rcases lt_or_ge y.line x.line with h1 | h1 <;> rcases lt_or_ge z.line y.line with h2 | h2 <;>
      rcases lt_or_ge z.line x.line with h3 | h3 <;>
      simp only [not_lt.2, h1, h2, h3, if_true, if_false] <;>
      first | rfl | (exact absurd (h2.trans h1) (not_lt.2 h3)) | (exact absurd (h1.trans h2) (not_le.2 h3))
  · rw [mn (nn hx hy) hz, mn hx (nn hy hz), mn hx hy, mn hy hz]
    rcases lt_or_ge x.line y.line with h1 | h1 <;> rcases lt_or_ge y.line z.line with h2 | h2 <;>
      rcases lt_or_ge x.line z.line with h3 | h3 <;>
      simp only [not_lt.2, h1, h2, h3, if_true, if_false] <;>
      first | rfl | (exact absurd (h1.trans h2) (not_lt.2 h3)) | (exact absurd (h2.trans h1) (not_le.2 h3))
  · rw [mx hx hx]; split <;> rfl
  · rw [mn hx hx]; split <;> rfl
  · rw [C82_equal]
    refine ⟨nx hx hy, nx hy hx, ?_⟩
    rw [mx hx hy, mx hy hx]
    rcases lt_trichotomy x.line y.line with h | h | h
    · rw [if_neg (not_lt.2 h.le), if_pos h]
    · rw [if_neg (by rw [h]; exact lt_irrefl _), if_neg (by rw [h]; exact lt_irrefl _), h]
    · rw [if_pos h, if_neg (not_lt.2 h.le)]
  · rw [C82_equal]
    refine ⟨nn hx hy, nn hy hx, ?_⟩
    rw [mn hx hy, mn hy hx]
    rcases lt_trichotomy x.line y.line with h | h | h
    · rw [if_pos h, if_neg (not_lt.2 h.le)]
    · rw [if_neg (by rw [h]; exact lt_irrefl _), if_neg (by rw [h]; exact lt_irrefl _), h]
    · rw [if_neg (not_lt.2 h.le), if_pos h]

/-- C82 in full, the laws: false for every format, already for 1, NaN and 0. -/
theorem C82_laws_refuted (f : Fmt) :
    ¬ (∀ x y z : Fl f, maximum (maximum x y) z = maximum x (maximum y z)) ∧
    ¬ (∀ x y : Fl f, maximum x y = maximum y x) ∧ ¬ MaxLaws f := by
  have h1 : ¬ (∀ x y z : Fl f, maximum (maximum x y) z = maximum x (maximum y z)) := by
    intro h
    have h := h 1 Fl.nan 0
    have e : maximum (maximum (1 : Fl f) Fl.nan) 0 = 0 := rfl
    have e' : maximum (1 : Fl f) (maximum Fl.nan 0) = 1 := by
      have : maximum (Fl.nan : Fl f) 0 = 0 := rfl
      rw [this]
      rfl
    rw [e, e'] at h
    exact absurd (congrArg Subtype.val h) (by show ¬ Raw.zero false = Raw.num 1; simp)
  have h2 : ¬ (∀ x y : Fl f, maximum x y = maximum y x) := by
    intro h
    have h : (Fl.nan : Fl f) = 0 := h 0 Fl.nan
    exact absurd (congrArg Subtype.val h) (by show ¬ Raw.nan = Raw.zero false; simp)
  exact ⟨h1, h2, fun h => h1 h.1⟩

/-! ## The greatest element of a column -/

theorem foldl_maximum_fin : ∀ (l : List (Fl f)) (a : Fl f), a ≠ Fl.nan → (∀ x ∈ l, x ≠ Fl.nan) →
    l.foldl maximum a ≠ Fl.nan ∧ (l.foldl maximum a = a ∨ l.foldl maximum a ∈ l) ∧ a.line ≤ (l.foldl maximum a).line ∧
      ∀ x ∈ l, x.line ≤ (l.foldl maximum a).line
  | [], a, ha, _ => ⟨ha, Or.inl rfl, le_refl _, fun x hx => by cases hx⟩
  | y :: l, a, ha, hl => by
    have hy := hl y List.mem_cons_self
    have e := ((C82_min_max a y).1 ha hy).1
    have hm : maximum a y ≠ Fl.nan := by rw [e]; split <;> assumption
    obtain ⟨h1, h2, h3, h4⟩ := foldl_maximum_fin l (maximum a y) hm (fun x hx => hl x (List.mem_cons_of_mem _ hx))
    have la : a.line ≤ (maximum a y).line := by
      rw [e]; split
      · exact le_refl _
      · rename_i h; exact not_lt.1 h
    have ly : y.line ≤ (maximum a y).line := by
      rw [e]; split
      · rename_i h; exact h.le
      · exact le_refl _
    rw [List.foldl_cons]
    refine ⟨h1, ?_, la.trans h3, ?_⟩
    · rcases h2 with h2 | h2
      · rw [h2]
        rw [e]
        split
        · exact Or.inl rfl
        · exact Or.inr List.mem_cons_self
      · exact Or.inr (List.mem_cons_of_mem _ h2)
    · intro x hx
      rcases List.mem_cons.1 hx with rfl | hx
      · exact ly.trans h3
      · exact h4 x hx

/-- What folding `Maximum` over a list of floats, from 0, gives. Without NaN: the greatest of 0 and the list. Otherwise
everything up to the last NaN is forgotten: NaN if it is the last element, and else the greatest of the elements
after it, however small. -/
def IsFoldMax (l : List (Fl f)) (m : Fl f) : Prop :=
  (Fl.nan ∉ l → m ≠ Fl.nan ∧ (m = 0 ∨ m ∈ l) ∧ (0 : Fl f).line ≤ m.line ∧ ∀ x ∈ l, x.line ≤ m.line) ∧
  ∀ before after, l = before ++ Fl.nan :: after → Fl.nan ∉ after →
    (after = [] → m = Fl.nan) ∧ (after ≠ [] → m ≠ Fl.nan ∧ m ∈ after ∧ ∀ x ∈ after, x.line ≤ m.line)

theorem isFoldMax_foldl (l : List (Fl f)) : IsFoldMax l (l.foldl maximum 0) := by
  constructor
  · intro h
    obtain ⟨h1, h2, h3, h4⟩ := foldl_maximum_fin l 0 (by rw [Fl.ne_nan]; show Raw.zero false ≠ .nan; simp)
      (fun x hx e => h (e ▸ hx))
    exact ⟨h1, h2, h3, h4⟩
  · rintro before after rfl h
    rw [List.foldl_append, List.foldl_cons, ((C82_min_max _ _).2 (Or.inr rfl)).1]
    constructor
    · rintro rfl; rfl
    · intro hne
      obtain ⟨y, l, rfl⟩ := List.exists_cons_of_ne_nil hne
      rw [List.foldl_cons, ((C82_min_max _ _).2 (Or.inl rfl)).1]
      obtain ⟨h1, h2, h3, h4⟩ := foldl_maximum_fin l y (fun e => h (e ▸ List.mem_cons_self))
        (fun x hx e => h (e ▸ List.mem_cons_of_mem _ hx))
      refine ⟨h1, ?_, ?_⟩
      · rcases h2 with h2 | h2
        · rw [h2]; exact List.mem_cons_self
        · exact List.mem_cons_of_mem _ h2
      · intro x hx
        rcases List.mem_cons.1 hx with rfl | hx
        · exact h3
        · exact h4 x hx

/-- The conditions determine the result up to the sign of zero. -/
theorem IsFoldMax.unique {l : List (Fl f)} {m m' : Fl f} (h : IsFoldMax l m) (h' : IsFoldMax l m') :
    (m = Fl.nan ↔ m' = Fl.nan) ∧ m.line = m'.line := by
  by_cases hn : Fl.nan ∈ l
  · obtain ⟨as, bs, e, hb⟩ := List.eq_append_cons_of_mem (List.mem_reverse.2 hn)
    have e : l = bs.reverse ++ Fl.nan :: as.reverse := by
      have := congrArg List.reverse e
      simpa using this
    have hb : Fl.nan ∉ as.reverse := by simpa using hb
    by_cases h0 : as.reverse = []
    · rw [(h.2 _ _ e hb).1 h0, (h'.2 _ _ e hb).1 h0]
      exact ⟨Iff.rfl, rfl⟩
    · obtain ⟨a1, a2, a3⟩ := (h.2 _ _ e hb).2 h0
      obtain ⟨b1, b2, b3⟩ := (h'.2 _ _ e hb).2 h0
      exact ⟨⟨fun e => absurd e a1, fun e => absurd e b1⟩, le_antisymm (b3 _ a2) (a3 _ b2)⟩
  · obtain ⟨a1, a2, a3, a4⟩ := h.1 hn
    obtain ⟨b1, b2, b3, b4⟩ := h'.1 hn
    refine ⟨⟨fun e => absurd e a1, fun e => absurd e b1⟩, le_antisymm ?_ ?_⟩
    · rcases a2 with rfl | a2
      · exact b3
      · exact b4 _ a2
    · rcases b2 with rfl | b2
      · exact a3
      · exact a4 _ b2

/-- C82 in full, the reduction: `ReduceMatrixToVector` on a float matrix of any format: for a column with a NaN it is NaN,
for one without it is the greatest of 0 and the cells. -/
def MaxPropagatesNaN (f : Fmt) : Prop := ∀ (w : World (Fl f)) (s : Ref), Reach (w.heap s) → (w.heap s).kind ≠ .svec →
  s < w.next → (w.heap s).rows ≤ w.gas → w.cancel = none →
  ∃ w' v, Ops.reduceMatrixToVector s w = .ok w.next w' ∧ w'.heap w.next = .dvec v ∧ v.l = (w.heap s).cols ∧
    ∀ c, c < (w.heap s).cols →
      ((∃ i, i < (w.heap s).rows ∧ (w.heap s).val i c = Fl.nan) → v.cell c = Fl.nan) ∧
      ((∀ i, i < (w.heap s).rows → (w.heap s).val i c ≠ Fl.nan) →
        (v.cell c = 0 ∨ ∃ i, i < (w.heap s).rows ∧ v.cell c = (w.heap s).val i c) ∧ (0 : Fl f).line ≤ (v.cell c).line ∧
          ∀ i, i < (w.heap s).rows → ((w.heap s).val i c).line ≤ (v.cell c).line)

/-- C82. What `ReduceMatrixToVector` returns on a float matrix: column by column the greatest of 0 and the cells if none
is NaN; and otherwise what `IsFoldMax` says of the cells it reads: all of them from top to bottom for the dense
formats, the non-zero ones for the compressed formats. -/
theorem C82_reduce {w : World (Fl f)} {s : Ref} (hs : (w.heap s).WF) (hlt : s < w.next)
    (hg : (w.heap s).rows ≤ w.gas) (hc : w.cancel = none) :
    ∃ w' v, Ops.reduceMatrixToVector s w = .ok w.next w' ∧ (∀ q, q < w.next → w'.heap q = w.heap q) ∧
      w'.heap w.next = .dvec v ∧ v.l = (w.heap s).cols ∧
      ∀ c, c < (w.heap s).cols → IsFoldMax
        (let column := (List.range (w.heap s).rows).map (fun i => (w.heap s).val i c)
         if (w.heap s).kind.sparse then column.filter (fun v => !isZero v) else column) (v.cell c) := by
  obtain ⟨w', v, h1, h2, h3, h4, h5⟩ := C81_vector_partial (MonoID.maximum (Fl f)) (mask := .nil) hs hlt hg hc trivial trivial
    (Or.inl rfl)
  refine ⟨w', v, h1, h2, h3, h4, fun c hcc => ?_⟩
  rw [h5 c hcc]
  have hfil : (List.range (w.heap s).rows).filter (fun i => !Mask.nil.bit w i 0) = List.range (w.heap s).rows :=
    List.filter_eq_self.2 (fun _ _ => rfl)
  rw [hfil]
  dsimp only
  split <;> exact isFoldMax_foldl _

/-- C82, columns without NaN: the greatest of 0 and the cells, in every format.

Missing: columns with a NaN (`C82_refuted`, `C82_reduce`). -/
theorem C82_reduce_partial {w : World (Fl f)} {s : Ref} (hs : (w.heap s).WF) (hlt : s < w.next)
    (hg : (w.heap s).rows ≤ w.gas) (hc : w.cancel = none)
    (hn : ∀ i j, i < (w.heap s).rows → j < (w.heap s).cols → (w.heap s).val i j ≠ Fl.nan) :
    ∃ w' v, Ops.reduceMatrixToVector s w = .ok w.next w' ∧ (∀ q, q < w.next → w'.heap q = w.heap q) ∧
      w'.heap w.next = .dvec v ∧ v.l = (w.heap s).cols ∧
      ∀ c, c < (w.heap s).cols →
        (v.cell c = 0 ∨ ∃ i, i < (w.heap s).rows ∧ v.cell c = (w.heap s).val i c) ∧ (0 : Fl f).line ≤ (v.cell c).line ∧
          ∀ i, i < (w.heap s).rows → ((w.heap s).val i c).line ≤ (v.cell c).line := by
  obtain ⟨w', v, h1, h2, h3, h4, h5⟩ := C82_reduce hs hlt hg hc
  refine ⟨w', v, h1, h2, h3, h4, fun c hcc => ?_⟩
  have h5 := h5 c hcc
  dsimp only at h5
  have mem : ∀ x ∈ (List.range (w.heap s).rows).map (fun i => (w.heap s).val i c),
      ∃ i, i < (w.heap s).rows ∧ x = (w.heap s).val i c := by
    intro x hx
    obtain ⟨i, hi, rfl⟩ := List.mem_map.1 hx
    exact ⟨i, List.mem_range.1 hi, rfl⟩
  split at h5
  · rename_i hk
    obtain ⟨a1, a2, a3, a4⟩ := h5.1 (fun hm => by
      obtain ⟨i, hi, e⟩ := mem _ (List.mem_filter.1 hm).1
      exact hn i c hi hcc e.symm)
    refine ⟨a2.imp_right (fun h => mem _ (List.mem_filter.1 h).1), a3, fun i hi => ?_⟩
    by_cases hz : isZero ((w.heap s).val i c) = true
    · rw [hs.zero_of_isZero hk hi hcc hz]; exact a3
    · exact a4 _ (List.mem_filter.2 ⟨List.mem_map.2 ⟨i, List.mem_range.2 hi, rfl⟩, by simpa using hz⟩)
  · obtain ⟨a1, a2, a3, a4⟩ := h5.1 (fun hm => by
      obtain ⟨i, hi, e⟩ := mem _ hm
      exact hn i c hi hcc e.symm)
    exact ⟨a2.imp_right (mem _), a3, fun i hi => a4 _ (List.mem_map.2 ⟨i, List.mem_range.2 hi, rfl⟩)⟩

end

/-- C82 in full, the reduction: false. A dense column NaN, -1 reduces to -1. -/
theorem C82_refuted : ¬ MaxPropagatesNaN binary64 := by
  intro h
  let m : Mat F64 := .dense { r := 2, c := 1, data := [[Fl.nan], [-1]] }
  obtain ⟨w', v, h1, h2, h3, h4⟩ := h (World.of (T := F64) 10 [m]) 0
    (Reach.arrDense (data := [[Fl.nan], [-1]]) (c := 1) (by intro row hr; simp at hr; rcases hr with rfl | rfl <;> rfl)
      (by decide +kernel)) (by simp [m, World.of, Mat.kind]) (by decide +kernel) (by decide +kernel) rfl
  have e : (Ops.reduceMatrixToVector 0 (World.of (T := F64) 10 [m])).obj = some (.dvec { l := 1, values := [-1] }) := by
    decide +kernel
  rw [h1] at e
  have e : w'.heap (World.of (T := F64) 10 [m]).next = .dvec { l := 1, values := [-1] } := Option.some.inj e
  rw [h2] at e
  injection e with e
  subst e
  have := (h4 0 (by decide +kernel)).1 ⟨0, by decide +kernel, by decide +kernel⟩
  exact absurd this (by decide +kernel)

/-- The same column stored three ways, NaN above 0: dense 0, compressed NaN. -/
example :
    (Ops.reduceMatrixToVector 0 (World.of (T := F64) 10 [.dense { r := 2, c := 1, data := [[Fl.nan], [0]] }])).obj =
      some (.dvec { l := 1, values := [0] }) ∧
    (Ops.reduceMatrixToVector 0 (World.of (T := F64) 10
      [.csr { r := 2, c := 1, values := [Fl.nan], cols := [0], rowStart := [0, 1, 1] }])).obj =
      some (.dvec { l := 1, values := [Fl.nan] }) ∧
    (Ops.reduceMatrixToVector 0 (World.of (T := F64) 10
      [.csc { r := 2, c := 1, values := [Fl.nan], rows := [0], colStart := [0, 1] }])).obj =
      some (.dvec { l := 1, values := [Fl.nan] }) := by decide +kernel

/-- `C82_reduce_partial` on a CSR matrix with infinities: the greatest of 0 and the cells. -/
example : (Ops.reduceMatrixToVector 0 (World.of (T := F64) 10
      [.csr { r := 2, c := 2, values := [Fl.inf true, 1, Fl.inf false], cols := [0, 1, 1], rowStart := [0, 2, 3] }])).obj =
      some (.dvec { l := 2, values := [0, Fl.inf false] }) := by decide +kernel

/-- Comparisons: `-∞ < -1 < -0`, `-0 == 0`, `NaN != NaN`. -/
example : lessThan (Fl.inf true : F64) (-1) = true ∧ lessThan (-1 : F64) Fl.negZero = true ∧
    equal (Fl.negZero : F64) 0 = true ∧ notEqual (Fl.nan : F64) Fl.nan = true ∧
    greaterThanOrEqual (Fl.nan : F64) Fl.nan = false ∧ maximum (0 : F64) Fl.negZero = Fl.negZero := by decide +kernel

end GB
