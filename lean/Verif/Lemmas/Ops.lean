import Verif.Lemmas.Scatter

/-!
# What each operator writes
-/

namespace GB

set_option linter.unusedSectionVars false
set_option linter.unusedSimpArgs false

variable {T : Type} [GoNum T] [GoStore T]

open M

/-! ## Masks -/

/-- The mask after the nil test. -/
def Mask.resolve (w : World T) (out : Ref) : Mask → Mask
  | .nil => .empty (w.heap out).rows (w.heap out).cols
  | m => m

theorem Mask.orEmpty_apply (mask : Mask) (out : Ref) (w : World T) :
    mask.orEmpty out w = .ok (mask.resolve w out) w := by
  cases mask <;> rfl

/-- A mask of the shape of the output covers the cells of the output. -/
theorem Mask.Fits.in {mask : Mask} {out : Ref} {w : World T} (hF : mask.Fits w out) {i j : Nat}
    (hi : i < (w.heap out).rows) (hj : j < (w.heap out).cols) : mask.Covers w i j := by
  cases mask with
  | nil => trivial
  | empty r c => trivial
  | ref p => exact ⟨by rw [hF.1]; exact hi, by rw [hF.2]; exact hj⟩
  | given r c el => exact ⟨by rw [hF.1]; exact hi, by rw [hF.2]; exact hj⟩

theorem Mask.Blank.covers {mask : Mask} {w : World T} (h : mask.Blank) (i j : Nat) : mask.Covers w i j := by
  cases mask with
  | nil => trivial
  | empty r c => trivial
  | ref p => cases h
  | given r c el => cases h

theorem Mask.check_ok {mask : Mask} {out : Ref} {w : World T} (h : mask.Fits w out) :
    (mask.resolve w out).check out w = .ok () w := by
  cases mask with
  | nil => simp [resolve, check, Mask.rows, Mask.cols, bind_apply]
  | empty r c =>
    obtain ⟨h1, h2⟩ := h
    simp [resolve, check, Mask.rows, Mask.cols, bind_apply, h1, h2]
  | ref p =>
    obtain ⟨h1, h2⟩ := h
    simp [resolve, check, Mask.rows, Mask.cols, bind_apply, h1, h2]
  | given r c el =>
    obtain ⟨h1, h2⟩ := h
    simp [resolve, check, Mask.rows, Mask.cols, bind_apply, h1, h2]

theorem Mask.check_panic {mask : Mask} {out : Ref} {w : World T} (h : ¬ mask.Fits w out) :
    (mask.resolve w out).check out w = .panic w := by
  cases mask with
  | nil => exact absurd trivial h
  | empty r c =>
    by_cases h1 : r = (w.heap out).rows
    · have h2 : ¬ c = (w.heap out).cols := fun h2 => h ⟨h1, h2⟩
      simp [resolve, check, Mask.rows, Mask.cols, bind_apply, h1, h2]
    · simp [resolve, check, Mask.rows, Mask.cols, bind_apply, h1]
  | ref p =>
    by_cases h1 : (w.heap p).rows = (w.heap out).rows
    · have h2 : ¬ (w.heap p).cols = (w.heap out).cols := fun h2 => h ⟨h1, h2⟩
      simp [resolve, check, Mask.rows, Mask.cols, bind_apply, h1, h2]
    · simp [resolve, check, Mask.rows, Mask.cols, bind_apply, h1]
  | given r c el =>
    by_cases h1 : r = (w.heap out).rows
    · have h2 : ¬ c = (w.heap out).cols := fun h2 => h ⟨h1, h2⟩
      simp [resolve, check, Mask.rows, Mask.cols, bind_apply, h1, h2]
    · simp [resolve, check, Mask.rows, Mask.cols, bind_apply, h1]

/-- The common beginning of the operators. -/
theorem Mask.pre_ok {α : Type} {mask : Mask} {out : Ref} {w : World T} (h : mask.Fits w out)
    (k : Mask → M T α) :
    (do let mask ← mask.orEmpty out; mask.check out; k mask) w = k (mask.resolve w out) w := by
  rw [bind_ok (Mask.orEmpty_apply mask out w), bind_ok (Mask.check_ok h)]

theorem Mask.pre_panic {α : Type} {mask : Mask} {out : Ref} {w : World T} (h : ¬ mask.Fits w out)
    (k : Mask → M T α) :
    (do let mask ← mask.orEmpty out; mask.check out; k mask) w = .panic w := by
  rw [bind_ok (Mask.orEmpty_apply mask out w), bind_panic (Mask.check_panic h)]

/-- Reading the mask while the output is being written: a cell not yet written reads as before. -/
theorem Mask.element_upd {mask : Mask} {out : Ref} {w : World T} (hS : mask.Sound w)
    (hF : mask.Fits w out) {i j : Nat} (hi : i < (w.heap out).rows) (hj : j < (w.heap out).cols)
    {m' : Mat T} {c : Option Nat} (hw : m'.WF) (hs : Mat.Same m' (w.heap out))
    (hv : m'.val i j = (w.heap out).val i j) :
    (mask.resolve w out).element i j (w.upd out m' c) = .ok (mask.bit w i j) (w.upd out m' c) := by
  cases mask with
  | nil => rfl
  | empty r c => rfl
  | given r c el =>
    obtain ⟨b, hb⟩ := hS i j (by rw [hF.1]; exact hi) (by rw [hF.2]; exact hj)
    simp only [resolve, element, Mask.bit, hb]
    rfl
  | ref p =>
    obtain ⟨h1, h2⟩ := hF
    have hS : (w.heap p).Inv := hS
    by_cases hp : p = out
    · subst hp
      have : (w.upd p m' c).heap p = m' := by simp
      simp only [resolve, element]
      rw [withObj_same (a := GoNum.glt 0 (m'.val i j))
        (by rw [this]; exact hw.inv.element_ok (by rw [hs.2.1]; exact hi) (by rw [hs.2.2]; exact hj))]
      simp [Mask.bit, hv]
    · have : (w.upd out m' c).heap p = w.heap p := World.upd_ne _ _ _ hp
      simp only [resolve, element]
      rw [withObj_same (a := GoNum.glt 0 ((w.heap p).val i j))
        (by rw [this]; exact hS.element_ok (by rw [h1]; exact hi) (by rw [h2]; exact hj))]
      simp [Mask.bit]

/-! ## From scattering to cells -/

theorem M.Scattered.writes {w : World T} {out : Ref} {pos : Nat × Nat × T → Nat × Nat}
    {act : Nat × Nat × T → Option T} {es : List (Nat × Nat × T)} {x : M T (Option Unit)}
    (h : Scattered w out pos act es (x w)) {new : Nat → Nat → T}
    (hhit : ∀ e ∈ es, new (pos e).1 (pos e).2 = (act e).getD ((w.heap out).val (pos e).1 (pos e).2))
    (hmiss : ∀ i j, i < (w.heap out).rows → j < (w.heap out).cols → (∀ e ∈ es, pos e ≠ (i, j)) →
      new i j = (w.heap out).val i j) :
    Writes w out new ((x >>= fun _ => pure ()) w) := by
  obtain ⟨y, m', c, done, rest, h1, h2, h3, h4, h5⟩ := h
  refine ⟨m', c, by rw [bind_ok h1]; rfl, h3.wf, h3.same, ?_, ?_⟩
  · intro hc
    have hcn := h5 hc
    have hr : rest = [] := by
      rcases h4 with ⟨-, h⟩ | ⟨-, h⟩
      · exact h
      · rw [hcn] at h; simp at h
    refine ⟨hcn, fun i j hi hj => ?_⟩
    rw [h3.same.2.1] at hi
    rw [h3.same.2.2] at hj
    have hes : es = done := by rw [h2, hr]; simp
    by_cases hx : ∃ e ∈ es, pos e = (i, j)
    · obtain ⟨e, he, hp⟩ := hx
      have a := h3.hit e (hes ▸ he)
      have b := hhit e he
      rw [hp] at a b
      rw [a, b]
    · push Not at hx
      rw [h3.miss i j hi hj (fun e he => hx e (by rw [hes]; exact he)), hmiss i j hi hj hx]
  · intro i j hi hj
    rw [h3.same.2.1] at hi
    rw [h3.same.2.2] at hj
    by_cases hx : ∃ e ∈ done, pos e = (i, j)
    · obtain ⟨e, he, hp⟩ := hx
      have a := h3.hit e he
      have b := hhit e (by rw [h2]; simp [he])
      rw [hp] at a b
      exact Or.inl (by rw [a, b])
    · push Not at hx
      exact Or.inr (h3.miss i j hi hj hx)

/-- The entries of the object iterated over, and which cells they are. -/
theorem Mat.visits {m : Mat T} (h : m.WF) : ∃ es, Mat.MapAt m m.iter es ∧
    Faithful m.rows m.cols m.val es ∧ es.length = m.nvalues ∧
    (∀ i j, i < m.rows → j < m.cols → ((∃ e ∈ es, coord e = (i, j)) ↔ m.Visits i j)) ∧
    es.Pairwise (fun a b => coord a ≠ coord b) ∧ ∀ e ∈ es, Mat.Storable m.kind e.2.2 := by
  obtain ⟨es, h1, h2, h3, h4, h5⟩ := Mat.entries_ok h
  refine ⟨es, h1, h2, h3, ?_, h2.distinct.imp (fun hab hc => hab ?_), ?_⟩
  · intro i j hi hj
    constructor
    · rintro ⟨e, he, hc⟩
      obtain ⟨rfl, rfl⟩ : e.1 = i ∧ e.2.1 = j := by simpa [coord] using hc
      by_cases hk : m.kind = .dense ∨ m.kind = .dvec
      · rcases hk with hk | hk
        · exact Or.inl hk
        · exact Or.inr (Or.inl hk)
      · push Not at hk
        refine Or.inr (Or.inr ?_)
        rw [h2.value e he]
        intro hz
        have := h5 hk e he
        rw [hz, isZero_zero] at this
        simp at this
    · rintro (hk | hk | hv)
      · exact ⟨_, h4 (Or.inl hk) i j hi hj, rfl⟩
      · exact ⟨_, h4 (Or.inr hk) i j hi hj, rfl⟩
      · exact ⟨_, h2.complete i j hi hj hv, rfl⟩
  · intro e he
    unfold Mat.Storable
    cases hk : m.kind <;> simp only
    · exact h5 (by simp [hk]) e he
    · exact h5 (by simp [hk]) e he
    · exact h5 (by simp [hk]) e he
  · simpa [coord] using hc

theorem Mat.MapAt.scatterable {m : Mat T} {es : List (Nat × Nat × T)} (h : Mat.MapAt m m.iter es) :
    Yields Mat.Iter.hasNext m.step m.iter es := h.yields

theorem Mat.storable_keep {m : Mat T} {v : T} (h : Mat.Storable m.kind v) : m.keep v = v := by
  unfold Mat.Storable at h
  unfold Mat.keep
  cases hk : m.kind <;> rw [hk] at h <;> simp_all [norm]

open Classical in
/-- The general shape of `Add`, `Subtract` and the like: for every visited cell of `over` that is not
skipped, the cell of `out` at the same place gets `F i j`. -/
theorem cellwise {w : World T} {over out : Ref} {skip : Nat → Nat → Bool} {F : Nat → Nat → T}
    {body : Nat → Nat → T → M T (Option Unit)}
    (hover : (w.heap over).WF) (hout : (w.heap out).WF)
    (hshape : SameShape (w.heap over) (w.heap out)) (hgas : (w.heap over).nvalues ≤ w.gas)
    (halias : over = out → ∀ i j, i < (w.heap out).rows → j < (w.heap out).cols →
      (w.heap over).Visits i j → skip i j = false → Mat.Storable (w.heap out).kind (F i j))
    (hbody : ∀ i j, i < (w.heap out).rows → j < (w.heap out).cols → ∀ m' c, m'.WF →
      Mat.Same m' (w.heap out) → m'.val i j = (w.heap out).val i j →
      ∃ m'', body i j ((w.heap over).val i j) (w.upd out m' c) = .ok none (w.upd out m'' c) ∧
        if skip i j then m'' = m' else Mat.Wrote m' m'' i j ((w.heap out).keep (F i j))) :
    Writes w out
      (fun i j => if (w.heap over).Visits i j ∧ skip i j = false then (w.heap out).keep (F i j)
        else (w.heap out).val i j)
      ((forEach over (some ()) body >>= fun _ => pure ()) w) := by
  obtain ⟨es, h1, h2, h3, h4, h5, -⟩ := Mat.visits hover
  let act : Nat × Nat × T → Option T := fun e =>
    if skip e.1 e.2.1 then none else some ((w.heap out).keep (F e.1 e.2.1))
  have hin : ∀ e ∈ es, (coord e).1 < (w.heap out).rows ∧ (coord e).2 < (w.heap out).cols := by
    intro e he
    have := h2.range e he
    rw [hshape.1, hshape.2] at this
    exact this
  have hb : ∀ e ∈ es, ∀ m' c, m'.WF → Mat.Same m' (w.heap out) →
      m'.val (coord e).1 (coord e).2 = (w.heap out).val (coord e).1 (coord e).2 →
      ∃ m'', body e.1 e.2.1 e.2.2 (w.upd out m' c) = .ok none (w.upd out m'' c) ∧
        ((act e = none ∧ m'' = m') ∨ ∃ v, act e = some v ∧ Mat.Wrote m' m'' (coord e).1 (coord e).2 v) := by
    intro e he m' c g1 g2 g3
    obtain ⟨m'', g4, g5⟩ := hbody e.1 e.2.1 (hin e he).1 (hin e he).2 m' c g1 g2 g3
    rw [h2.value e he] at g4
    refine ⟨m'', g4, ?_⟩
    by_cases hm : skip e.1 e.2.1 = true
    · rw [if_pos hm] at g5
      exact Or.inl ⟨by simp [act, hm], g5⟩
    · rw [if_neg hm] at g5
      exact Or.inr ⟨_, by simp [act, hm], g5⟩
  have hsc : Scattered w out coord act es (forEach over (some ()) body w) := by
    by_cases hne : over = out
    · subst hne
      refine scatter_alias h1 (by omega) hin h5 ?_ hb
      intro e he v hv
      by_cases hm : skip e.1 e.2.1 = true
      · simp [act, hm] at hv
      · simp only [act, hm, Bool.false_eq_true, if_false, Option.some.injEq] at hv
        have hst := halias rfl e.1 e.2.1 (hin e he).1 (hin e he).2
          ((h4 _ _ (hin e he).1 (hin e he).2).1 ⟨e, he, rfl⟩) (by simpa using hm)
        rw [← hv, Mat.storable_keep hst]
        exact hst
    · exact scatter hne h1.yields (by omega) hout hin h5 hb
  refine hsc.writes ?_ ?_
  · intro e he
    have hv := (h4 e.1 e.2.1 (h2.range e he).1 (h2.range e he).2).1 ⟨e, he, rfl⟩
    by_cases hm : skip e.1 e.2.1 = true
    · simp [act, coord, hm]
    · simp [act, coord, hm, hv]
  · intro i j hi hj hn
    rw [if_neg]
    rintro ⟨hv, -⟩
    obtain ⟨e, he, hc⟩ := (h4 i j (by rw [hshape.1]; exact hi) (by rw [hshape.2]; exact hj)).2 hv
    exact hn e he hc

end GB
