import Verif.Lemmas.Ordered
import Verif.Lemmas.EMul
import Verif.Lemmas.Ops3
import Verif.Lemmas.Mul

/-!
# Operators that fill an empty sparse vector
-/

namespace GB

set_option linter.unusedSectionVars false
set_option linter.unusedSimpArgs false

open M

variable {T : Type} [GoNum T] [GoStore T]

/-- The call succeeded and left the sparse vector `out` of length `l` with the non-zero values of `f`. -/
def Filled (w : World T) (out : Ref) (l : Nat) (f : Nat → T) (res : Res T Unit) : Prop :=
  ∃ s', res = .ok () (w.upd out (.svec s') none) ∧ s'.l = l ∧ SVec.Rep s' (SVec.nz f l)

/-- `out` is an empty sparse vector of length `l`. -/
def EmptyVec (w : World T) (out : Ref) (l : Nat) : Prop :=
  ∃ s0, w.heap out = .svec s0 ∧ s0.l = l ∧ SVec.Rep s0 []

theorem Filled.congr {w : World T} {out : Ref} {l : Nat} {f g : Nat → T} {res : Res T Unit} (h : Filled w out l f res)
    (hfg : ∀ i, i < l → f i = g i) : Filled w out l g res := by
  obtain ⟨s', h1, h2, h3⟩ := h
  exact ⟨s', h1, h2, nz_congr hfg ▸ h3⟩

theorem EmptyVec.rows {w : World T} {out : Ref} {l : Nat} (h : EmptyVec w out l) :
    (w.heap out).rows = l ∧ (w.heap out).cols = 1 := by
  obtain ⟨s0, h1, h2, -⟩ := h
  rw [h1]
  exact ⟨h2, rfl⟩

theorem EmptyVec.val {w : World T} {out : Ref} {l : Nat} (h : EmptyVec w out l) {i : Nat} (hi : i < l) :
    (w.heap out).val i 0 = 0 := by
  obtain ⟨s0, h1, h2, h3⟩ := h
  rw [h1, Mat.val_svec h3 (by omega)]
  simp [rowGet]

/-- Appending at positions in increasing order. -/
theorem flatMap_nz {es : List (Nat × Nat × T)} {pos : Nat × Nat × T → Nat} {f : Nat → T} {l : Nat}
    (hin : ∀ e ∈ es, pos e < l) (hd : es.Pairwise (fun a b => pos a < pos b))
    (hf : ∀ i, i < l → (∀ e ∈ es, pos e ≠ i) → isZero (f i) = true) :
    es.flatMap (fun e => midOf (pos e) (f (pos e))) = SVec.nz f l := by
  refine RowSorted.ext ?_ (nz_sorted _ _) ?_
  · unfold RowSorted
    rw [List.pairwise_flatMap]
    refine ⟨fun e _ => by unfold midOf; split <;> simp, hd.imp ?_⟩
    intro a b hab x hx y hy
    unfold midOf at hx hy
    split at hx
    · simp at hx
    · split at hy
      · simp at hy
      · simp only [List.mem_singleton] at hx hy
        rw [hx, hy]; exact hab
  · intro x
    rw [mem_nz, List.mem_flatMap]
    constructor
    · rintro ⟨e, he, hx⟩
      unfold midOf at hx
      split at hx
      · simp at hx
      · rename_i hz
        simp only [List.mem_singleton] at hx
        rw [hx]
        exact ⟨hin e he, by simpa using hz, rfl⟩
    · rintro ⟨h1, h2, h3⟩
      by_cases hx : ∃ e ∈ es, pos e = x.1
      · obtain ⟨e, he, hp⟩ := hx
        refine ⟨e, he, ?_⟩
        rw [hp]
        unfold midOf
        rw [if_neg (by rw [h2]; simp), ← h3]
        simp
      · push Not at hx
        rw [hf x.1 h1 hx] at h2
        simp at h2

/-- The loop of the operators, the output being an empty sparse vector and the writes going upwards. -/
theorem scatterVec {w : World T} {over out : Ref} {es : List (Nat × Nat × T)} {l : Nat}
    {body : Nat → Nat → T → M T (Option Unit)} {pos : Nat × Nat × T → Nat} {f : Nat → T} (hne : over ≠ out)
    (hY : Yields Mat.Iter.hasNext (w.heap over).step (w.heap over).iter es) (hg : es.length ≤ w.gas)
    (h0 : EmptyVec w out l) (hc : w.cancel = none)
    (hin : ∀ e ∈ es, pos e < l) (hd : es.Pairwise (fun a b => pos a < pos b))
    (hf : ∀ i, i < l → (∀ e ∈ es, pos e ≠ i) → isZero (f i) = true)
    (hbody : ∀ e ∈ es, ∀ s' xs, s'.l = l → SVec.Rep s' xs → (∀ x ∈ xs, x.1 < pos e) →
      ∃ s'', body e.1 e.2.1 e.2.2 (w.upd out (.svec s') none) = .ok none (w.upd out (.svec s'') none) ∧
        s''.l = l ∧ SVec.Rep s'' (xs ++ midOf (pos e) (f (pos e)))) :
    Filled w out l f ((forEach over (some ()) body >>= fun _ => pure ()) w) := by
  obtain ⟨s0, a1, a2, a3⟩ := h0
  let J : Mat.Iter → List (Nat × Nat × T) → World T → Prop := fun it rest w' =>
    ∃ s' done, w' = w.upd out (.svec s') none ∧ es = done ++ rest ∧ s'.l = l ∧
      SVec.Rep s' (done.flatMap (fun e => midOf (pos e) (f (pos e)))) ∧
      Yields Mat.Iter.hasNext (w.heap over).step it rest
  have hw0 : w = w.upd out (.svec s0) none := by
    conv_lhs => rw [← w.upd_self out]
    rw [a1, hc]
  have key : ∃ x w', forEach over (some ()) body w = .ok x w' ∧ ∃ it', J it' [] w' := by
    rw [forEach_eq]
    obtain ⟨x, w', h1, h2⟩ := loopIter_rule (p := over) (b0 := ()) (body := body) (J := J)
      (Q := fun _ _ => False)
      (by rintro it w' ⟨s', done, -, -, -, -, hy⟩; exact hy)
      (by
        rintro it rest w' ⟨s', done, rfl, h2, h3, h4, h5⟩
        exact ⟨s', done, rfl, h2, h3, h4, h5⟩)
      (by
        rintro it e rest w' ⟨s', done, rfl, h2, h3, h4, h5, it', h6, h7⟩
        have he : e ∈ es := by rw [h2]; simp
        have hdone : ∀ a ∈ done, pos a < pos e := by
          intro a ha
          rw [h2, List.pairwise_append] at hd
          exact hd.2.2 a ha e (by simp)
        obtain ⟨s'', h8, h9, h10⟩ := hbody e he s' _ h3 h4 (by
          intro x hx
          obtain ⟨a, ha, hx⟩ := List.mem_flatMap.1 hx
          unfold midOf at hx
          split at hx
          · simp at hx
          · simp only [List.mem_singleton] at hx
            rw [hx]; exact hdone a ha)
        refine ⟨h5, it', by rw [World.upd_ne _ _ _ hne]; exact h6, none, _, h8, fun _ => ?_,
          fun b hb => by simp at hb⟩
        exact ⟨s'', done ++ [e], rfl, by simp [h2], h9, by simpa using h10, h7⟩)
      w.gas (w.heap over).iter es w hg
      ⟨s0, [], hw0, rfl, a2, by simpa using a3, hY⟩
    rcases h2 with ⟨rfl, it', hJ⟩ | ⟨b, -, hf⟩ | ⟨rfl, hcc, it', e, rest', s', done, e1, -⟩
    · exact ⟨none, w', h1, it', hJ⟩
    · exact hf.elim
    · rw [e1] at hcc; simp at hcc
  obtain ⟨x, w', k1, it', s', done, rfl, k2, k3, k4, -⟩ := key
  refine ⟨s', by rw [bind_ok k1]; rfl, k3, ?_⟩
  have : es = done := by rw [k2]; simp
  subst this
  rwa [flatMap_nz hin hd hf] at k4

/-! ## One step -/

/-- `Set` above everything stored. -/
theorem set_push {w : World T} {out : Ref} {c : Option Nat} {s' : SVec T} {xs : List (Nat × T)} {l i : Nat} (hl : s'.l = l)
    (hr : SVec.Rep s' xs) (hx : ∀ x ∈ xs, x.1 < i) (hi : i < l) (v : T) :
    ∃ s'', M.set out i 0 v (w.upd out (.svec s') c) = .ok () (w.upd out (.svec s'') c) ∧ s''.l = l ∧
      SVec.Rep s'' (xs ++ midOf i v) := by
  obtain ⟨s'', e1, e2, e3⟩ := hr.push (i := i) (by omega) hx v
  refine ⟨s'', ?_, e2.trans hl, e3⟩
  have hs : (Mat.svec s').set i (0 : Nat) v = .ok (.svec s'') := by
    have h0 : inRange (0 : Int) 1 = true := by decide
    simp [Mat.set, SVec.set, hl, hi, e1, h0]
  unfold M.set
  rw [withObj_ok (a := ()) (m := .svec s'') (by rw [World.upd_out, hs]; rfl), World.upd_heap]

theorem rowGet_above {xs : List (Nat × T)} {i : Nat} (hx : ∀ x ∈ xs, x.1 < i) : rowGet xs i = 0 := by
  induction xs with
  | nil => rfl
  | cons x xs ih =>
    have := hx x (by simp)
    unfold rowGet
    have h2 := ih (fun y hy => hx y (by simp [hy]))
    unfold rowGet at h2
    rw [List.find?_cons_of_neg (by simp; omega)]
    exact h2

/-- `Update` above everything stored finds 0. -/
theorem update_push {w : World T} {out : Ref} {c : Option Nat} {s' : SVec T} {xs : List (Nat × T)} {l i : Nat} (hl : s'.l = l)
    (hr : SVec.Rep s' xs) (hx : ∀ x ∈ xs, x.1 < i) (hi : i < l) (g : T → T) :
    ∃ s'', M.update out i 0 g (w.upd out (.svec s') c) = .ok () (w.upd out (.svec s'') c) ∧ s''.l = l ∧
      SVec.Rep s'' (xs ++ midOf i (g 0)) := by
  obtain ⟨s'', e1, e2, e3⟩ := hr.push (i := i) (by omega) hx (g 0)
  refine ⟨s'', ?_, e2.trans hl, e3⟩
  have ha : s'.atVec i = .ok 0 := by
    rw [hr.atVec_ok (by omega), rowGet_above hx]; simp
  have hs : (Mat.svec s').update i (0 : Nat) g = .ok (.svec s'') := by
    have h0 : inRange (0 : Int) 1 = true := by decide
    simp [Mat.update, SVec.update, SVec.updateWith, hl, hi, ha, e1, h0]
  unfold M.update
  rw [withObj_ok (a := ()) (m := .svec s'') (by rw [World.upd_out, hs]; rfl), World.upd_heap]

/-- The mask is another object: writing the output does not change it. -/
theorem Mask.element_apart {mask : Mask} {out : Ref} {w : World T} (hS : mask.Sound w) (hmo : mask ≠ .ref out) {i j : Nat}
    (hin : mask.Covers w i j) (m' : Mat T) (c : Option Nat) :
    (mask.resolve w out).element i j (w.upd out m' c) = .ok (mask.bit w i j) (w.upd out m' c) := by
  cases mask with
  | nil => rfl
  | empty r c => rfl
  | given a b el =>
    obtain ⟨b, hb⟩ := hS i j hin.1 hin.2
    simp only [resolve, element, Mask.bit, hb]
    rfl
  | ref p =>
    have hS : (w.heap p).Inv := hS
    have hp : p ≠ out := fun h => hmo (by rw [h])
    have : (w.upd out m' c).heap p = w.heap p := World.upd_ne _ _ _ hp
    simp only [resolve, element]
    rw [withObj_same (a := GoNum.glt 0 ((w.heap p).val i j))
      (by rw [this]; exact hS.element_ok hin.1 hin.2)]
    simp [Mask.bit]

theorem at_apart {p out : Ref} {w : World T} (hp : (w.heap p).Inv) (hne : p ≠ out) {i j : Nat} (hi : i < (w.heap p).rows)
    (hj : j < (w.heap p).cols) (m' : Mat T) (c : Option Nat) :
    M.at' p i j (w.upd out m' c) = .ok ((w.heap p).val i j) (w.upd out m' c) := by
  have : (w.upd out m' c).heap p = w.heap p := World.upd_ne _ _ _ hne
  have := M.at_ok (p := p) (w := w.upd out m' c) (i := i) (j := j) (by rwa [this]) (by rwa [this]) (by rwa [this])
  rwa [World.upd_ne _ _ _ hne] at this

/-! ## The order of the entries -/

theorem Mat.scan_rows {m : Mat T} (hc : m.cols = 1) : m.scan.Pairwise (fun a b => a.1 < b.1) := by
  have hmem : ∀ p ∈ m.scan, p.2 = 0 := fun p hp => by have := (Mat.mem_scan.1 hp).2; omega
  have : m.scan.Pairwise (fun a b => (a.1 < b.1 ∨ (a.1 = b.1 ∧ a.2 < b.2)) ∨ (a.2 < b.2 ∨ (a.2 = b.2 ∧ a.1 < b.1))) := by
    unfold Mat.scan
    split
    · exact (cellsByColumn_colMajor _ _).imp Or.inr
    · exact (cells_rowMajor _ _).imp Or.inl
  refine this.imp_of_mem ?_
  intro a b ha hb h
  have := hmem a ha; have := hmem b hb
  omega

theorem Mat.scan_cols {m : Mat T} (hr : m.rows = 1) : m.scan.Pairwise (fun a b => a.2 < b.2) := by
  have hmem : ∀ p ∈ m.scan, p.1 = 0 := fun p hp => by have := (Mat.mem_scan.1 hp).1; omega
  have : m.scan.Pairwise (fun a b => (a.1 < b.1 ∨ (a.1 = b.1 ∧ a.2 < b.2)) ∨ (a.2 < b.2 ∨ (a.2 = b.2 ∧ a.1 < b.1))) := by
    unfold Mat.scan
    split
    · exact (cellsByColumn_colMajor _ _).imp Or.inr
    · exact (cells_rowMajor _ _).imp Or.inl
  refine this.imp_of_mem ?_
  intro a b ha hb h
  have := hmem a ha; have := hmem b hb
  omega

/-- The entries, in their order, and which cells they are. -/
theorem Mat.lane_entries {m : Mat T} (h : m.WF) : ∃ es,
    Yields Mat.Iter.hasNext m.step m.iter es ∧ es.length = m.nvalues ∧
    (∀ e ∈ es, e.1 < m.rows ∧ e.2.1 < m.cols ∧ m.val e.1 e.2.1 = e.2.2 ∧ m.Visits e.1 e.2.1) ∧
    (∀ i j, i < m.rows → j < m.cols → m.Visits i j → ∃ e ∈ es, e.1 = i ∧ e.2.1 = j) ∧
    (m.cols = 1 → es.Pairwise (fun a b => a.1 < b.1)) ∧ (m.rows = 1 → es.Pairwise (fun a b => a.2.1 < b.2.1)) := by
  obtain ⟨es, e1, e2, e3, e4⟩ := Mat.ordered_entries h
  obtain ⟨es', f1, f2, f3, f4, -, -⟩ := Mat.visits h
  have := Yields.unique f1.yields e1.yields
  subst this
  refine ⟨es', e1.yields, e2, ?_, ?_, ?_, ?_⟩
  · intro e he
    exact ⟨(f2.range e he).1, (f2.range e he).2, f2.value e he, (f4 _ _ (f2.range e he).1 (f2.range e he).2).1 ⟨e, he, rfl⟩⟩
  · intro i j hi hj hv
    obtain ⟨e, he, hc⟩ := (f4 i j hi hj).2 hv
    exact ⟨e, he, by simpa [coord] using hc⟩
  · intro hc
    rw [e4, List.pairwise_map]
    exact (Mat.scan_rows hc).filter _
  · intro hr
    rw [e4, List.pairwise_map]
    exact (Mat.scan_cols hr).filter _

/-! ## The operators -/

namespace Ops

/-- One pass through a column: every visited place `i` of `over` makes the output `f i`. -/
theorem alongColumn {w : World T} {over out : Ref} {l : Nat} {body : Nat → Nat → T → M T (Option Unit)} {f : Nat → T}
    (hne : over ≠ out) (ho : (w.heap over).WF) (hr : (w.heap over).rows = l) (hcol : (w.heap over).cols = 1)
    (hg : (w.heap over).nvalues ≤ w.gas) (h0 : EmptyVec w out l) (hc : w.cancel = none)
    (hf : ∀ i, i < l → ¬ (w.heap over).Visits i 0 → isZero (f i) = true)
    (hbody : ∀ i, i < l → (w.heap over).Visits i 0 → ∀ s' xs, s'.l = l → SVec.Rep s' xs → (∀ x ∈ xs, x.1 < i) →
      ∃ s'', body i 0 ((w.heap over).val i 0) (w.upd out (.svec s') none) = .ok none (w.upd out (.svec s'') none) ∧
        s''.l = l ∧ SVec.Rep s'' (xs ++ midOf i (f i))) :
    Filled w out l f ((forEach over (some ()) body >>= fun _ => pure ()) w) := by
  obtain ⟨es, e1, e2, e3, e4, e5, -⟩ := Mat.lane_entries ho
  refine scatterVec (pos := fun e => e.1) hne e1 (by omega) h0 hc (fun e he => hr ▸ (e3 e he).1) (e5 hcol) ?_ ?_
  · intro i hi hn
    refine hf i hi (fun hv => ?_)
    obtain ⟨e, he, h, -⟩ := e4 i 0 (by omega) (by omega) hv
    exact hn e he h
  · intro e he s' xs hl hrep hx
    obtain ⟨h1, h2, h3, h4⟩ := e3 e he
    have h0 : e.2.1 = 0 := by omega
    have := hbody e.1 (by omega) (h0 ▸ h4) s' xs hl hrep hx
    rw [h0] at h3 ⊢
    rwa [h3] at this

/-- One pass through a row. -/
theorem alongRow {w : World T} {over out : Ref} {l : Nat} {body : Nat → Nat → T → M T (Option Unit)} {f : Nat → T}
    (hne : over ≠ out) (ho : (w.heap over).WF) (hr : (w.heap over).cols = l) (hrow : (w.heap over).rows = 1)
    (hg : (w.heap over).nvalues ≤ w.gas) (h0 : EmptyVec w out l) (hc : w.cancel = none)
    (hf : ∀ i, i < l → ¬ (w.heap over).Visits 0 i → isZero (f i) = true)
    (hbody : ∀ i, i < l → (w.heap over).Visits 0 i → ∀ s' xs, s'.l = l → SVec.Rep s' xs → (∀ x ∈ xs, x.1 < i) →
      ∃ s'', body 0 i ((w.heap over).val 0 i) (w.upd out (.svec s') none) = .ok none (w.upd out (.svec s'') none) ∧
        s''.l = l ∧ SVec.Rep s'' (xs ++ midOf i (f i))) :
    Filled w out l f ((forEach over (some ()) body >>= fun _ => pure ()) w) := by
  obtain ⟨es, e1, e2, e3, e4, -, e5⟩ := Mat.lane_entries ho
  refine scatterVec (pos := fun e => e.2.1) hne e1 (by omega) h0 hc (fun e he => hr ▸ (e3 e he).2.1) (e5 hrow) ?_ ?_
  · intro i hi hn
    refine hf i hi (fun hv => ?_)
    obtain ⟨e, he, -, h⟩ := e4 0 i (by omega) (by omega) hv
    exact hn e he h
  · intro e he s' xs hl hrep hx
    obtain ⟨h1, h2, h3, h4⟩ := e3 e he
    have h0 : e.1 = 0 := by omega
    have := hbody e.2.1 (by omega) (h0 ▸ h4) s' xs hl hrep hx
    rw [h0] at h3 ⊢
    rwa [h3] at this

theorem midOf_zero (i : Nat) : midOf i (0 : T) = [] := by
  unfold midOf; rw [if_pos isZero_zero]

open Classical in
theorem add_fills {w : World T} {s m out : Ref} {mask : Mask} {l : Nat}
    (hs : (w.heap s).WF) (hm : (w.heap m).WF) (h0 : EmptyVec w out l) (h1 : SameShape (w.heap s) (w.heap m))
    (h2 : SameShape (w.heap s) (w.heap out)) (hF : mask.Fits w out) (hS : mask.Sound w) (hmo : mask ≠ .ref out)
    (hso : s ≠ out) (hmo' : m ≠ out) (hgas : (w.heap (addOver w s m)).nvalues ≤ w.gas) (hc : w.cancel = none) :
    Filled w out l (fun i => if (w.heap (addOver w s m)).Visits i 0 ∧ mask.bit w i 0 = false then
        (w.heap (addSource w s m)).val i 0 + (w.heap (addOver w s m)).val i 0 else 0) (Ops.add s m mask out w) := by
  have hrun : Ops.add s m mask out w = (forEach (addOver w s m) (some ()) (fun r c v => do
      let value ← at' (addSource w s m) r c
      let e ← (mask.resolve w out).element r c
      if !e then M.set out r c (value + v)
      pure none) >>= fun _ => pure ()) w := by
    unfold Ops.add
    simp only [bind_apply, colsOf_apply, rowsOf_apply, h1.1, h1.2, ne_eq, not_true, if_false, pure_apply,
      Mask.orEmpty_apply, Mask.check_ok hF, isSparse_apply]
    by_cases hsp : (w.heap s).typeName ∈ w.reg <;> simp [addOver, addSource, hsp, bind_apply]
  rw [hrun]
  obtain ⟨r0, c0⟩ := h0.rows
  have hO : (w.heap (addOver w s m)).WF ∧ SameShape (w.heap (addOver w s m)) (w.heap out) ∧ addOver w s m ≠ out := by
    unfold addOver; split
    · exact ⟨hs, h2, hso⟩
    · exact ⟨hm, ⟨h1.1.symm.trans h2.1, h1.2.symm.trans h2.2⟩, hmo'⟩
  have hR : (w.heap (addSource w s m)).WF ∧ SameShape (w.heap (addSource w s m)) (w.heap out) ∧ addSource w s m ≠ out := by
    unfold addSource; split
    · exact ⟨hm, ⟨h1.1.symm.trans h2.1, h1.2.symm.trans h2.2⟩, hmo'⟩
    · exact ⟨hs, h2, hso⟩
  refine alongColumn hO.2.2 hO.1 (hO.2.1.1.trans r0) (hO.2.1.2.trans c0) hgas h0 hc ?_ ?_
  · intro i _ hv
    simp only [hv, false_and, if_false]
    exact isZero_zero
  · intro i hi hv s' xs hl hrep hx
    have e1 := at_apart (out := out) hR.1.inv hR.2.2 (i := i) (j := 0) (by rw [hR.2.1.1, r0]; exact hi)
      (by rw [hR.2.1.2, c0]; exact Nat.one_pos) (.svec s') none
    have e2 := Mask.element_apart hS hmo (i := i) (j := 0) (hF.in (by rw [r0]; exact hi) (by rw [c0]; exact Nat.one_pos)) (.svec s') none
    rw [bind_ok e1, bind_ok e2]
    cases hb : mask.bit w i 0 with
    | true =>
      refine ⟨s', rfl, hl, ?_⟩
      simp only [Bool.true_eq_false, and_false, if_false, midOf_zero, List.append_nil]
      exact hrep
    | false =>
      obtain ⟨s'', g1, g2, g3⟩ := set_push (w := w) (out := out) (c := none) hl hrep hx hi
        ((w.heap (addSource w s m)).val i 0 + (w.heap (addOver w s m)).val i 0)
      refine ⟨s'', ?_, g2, ?_⟩
      · simp only [Bool.not_false, if_true]
        rw [bind_ok g1]; rfl
      · simp only [hv, and_self, if_true]
        exact g3

open Classical in
theorem subtract_fills {w : World T} {s m out : Ref} {mask : Mask} {l : Nat}
    (hs : (w.heap s).WF) (h0 : EmptyVec w out l) (h1 : SameShape (w.heap s) (w.heap m))
    (h2 : SameShape (w.heap s) (w.heap out)) (hF : mask.Fits w out) (hS : mask.Sound w) (hmo : mask ≠ .ref out)
    (hso : s ≠ out) (hgas : (w.heap s).nvalues ≤ w.gas) (hc : w.cancel = none) :
    Filled w out l (fun i => if (w.heap s).Visits i 0 ∧ mask.bit w i 0 = false then (w.heap s).val i 0 - 0 else 0)
      (Ops.subtract s m mask out w) := by
  have hrun : Ops.subtract s m mask out w = (forEach s (some ()) (fun r c value => do
      let e ← (mask.resolve w out).element r c
      if !e then M.update out r c (fun v => value - v)
      pure none) >>= fun _ => pure ()) w := by
    unfold Ops.subtract
    simp only [bind_apply, colsOf_apply, rowsOf_apply, h1.1, h1.2, ne_eq, not_true, if_false, pure_apply,
      Mask.orEmpty_apply, Mask.check_ok hF]
  rw [hrun]
  obtain ⟨r0, c0⟩ := h0.rows
  refine alongColumn hso hs (h2.1.trans r0) (h2.2.trans c0) hgas h0 hc ?_ ?_
  · intro i _ hv
    simp only [hv, false_and, if_false]
    exact isZero_zero
  · intro i hi hv s' xs hl hrep hx
    have e2 := Mask.element_apart hS hmo (i := i) (j := 0) (hF.in (by rw [r0]; exact hi) (by rw [c0]; exact Nat.one_pos)) (.svec s') none
    rw [bind_ok e2]
    cases hb : mask.bit w i 0 with
    | true =>
      refine ⟨s', rfl, hl, ?_⟩
      simp only [Bool.true_eq_false, and_false, if_false, midOf_zero, List.append_nil]
      exact hrep
    | false =>
      obtain ⟨s'', g1, g2, g3⟩ := update_push (w := w) (out := out) (c := none) hl hrep hx hi
        (fun v => (w.heap s).val i 0 - v)
      refine ⟨s'', ?_, g2, ?_⟩
      · simp only [Bool.not_false, if_true]
        rw [bind_ok g1]; rfl
      · simp only [hv, and_self, if_true]
        exact g3

open Classical in
theorem eMul_fills {w : World T} {s m out : Ref} {mask : Mask} {l : Nat}
    (hs : (w.heap s).WF) (hm : (w.heap m).WF) (h0 : EmptyVec w out l)
    (h1 : SameShape (w.heap s) (w.heap out)) (h2 : SameShape (w.heap m) (w.heap out))
    (hF : mask.Fits w out) (hS : mask.Sound w) (hmo : mask ≠ .ref out) (hso : s ≠ out) (hmo' : m ≠ out)
    (hgs : (w.heap s).nvalues ≤ w.gas) (hgm : (w.heap m).nvalues ≤ w.gas) (hc : w.cancel = none) :
    Filled w out l (fun i => if (w.heap (addOver w s m)).Visits i 0 ∧ mask.bit w i 0 = false ∧
        GoNum.geq ((w.heap (addOver w s m)).val i 0) ((w.heap (addSource w s m)).val i 0) = true then
        (w.heap (addOver w s m)).val i 0 else 0) (Ops.elementWiseMultiply s m mask out w) := by
  have hrun : elementWiseMultiply s m mask out w = (forEach (addOver w s m) (some ()) (fun r c v => do
      eMulTarget (addSource w s m) out (mask.resolve w out) r c v; pure none) >>= fun _ => pure ()) w := by
    unfold elementWiseMultiply
    rw [Mask.pre_ok hF]
    simp only [if_neg hso, if_neg hmo', bind_apply, isSparse_apply]
    by_cases hsp : (w.heap s).typeName ∈ w.reg <;> simp [addOver, addSource, hsp, bind_apply]
  rw [hrun]
  obtain ⟨r0, c0⟩ := h0.rows
  have hO : (w.heap (addOver w s m)).WF ∧ SameShape (w.heap (addOver w s m)) (w.heap out) ∧ addOver w s m ≠ out ∧
      (w.heap (addOver w s m)).nvalues ≤ w.gas := by
    unfold addOver; split
    · exact ⟨hs, h1, hso, hgs⟩
    · exact ⟨hm, h2, hmo', hgm⟩
  have hR : (w.heap (addSource w s m)).WF ∧ SameShape (w.heap (addSource w s m)) (w.heap out) ∧ addSource w s m ≠ out := by
    unfold addSource; split
    · exact ⟨hm, h2, hmo'⟩
    · exact ⟨hs, h1, hso⟩
  refine alongColumn hO.2.2.1 hO.1 (hO.2.1.1.trans r0) (hO.2.1.2.trans c0) hO.2.2.2 h0 hc ?_ ?_
  · intro i _ hv
    simp only [hv, false_and, if_false]
    exact isZero_zero
  · intro i hi hv s' xs hl hrep hx
    have e1 := at_apart (out := out) hR.1.inv hR.2.2 (i := i) (j := 0) (by rw [hR.2.1.1, r0]; exact hi)
      (by rw [hR.2.1.2, c0]; exact Nat.one_pos) (.svec s') none
    have e2 := Mask.element_apart hS hmo (i := i) (j := 0) (hF.in (by rw [r0]; exact hi) (by rw [c0]; exact Nat.one_pos)) (.svec s') none
    unfold eMulTarget
    rw [bind_apply, bind_ok e1]
    cases hq : GoNum.geq ((w.heap (addOver w s m)).val i 0) ((w.heap (addSource w s m)).val i 0) with
    | false =>
      refine ⟨s', rfl, hl, ?_⟩
      simp only [Bool.false_eq_true, and_false, if_false, midOf_zero, List.append_nil]
      exact hrep
    | true =>
      simp only [if_true]
      rw [bind_ok e2]
      cases hb : mask.bit w i 0 with
      | true =>
        refine ⟨s', rfl, hl, ?_⟩
        simp only [Bool.true_eq_false, false_and, and_false, if_false, midOf_zero, List.append_nil]
        exact hrep
      | false =>
        obtain ⟨s'', g1, g2, g3⟩ := set_push (w := w) (out := out) (c := none) hl hrep hx hi
          ((w.heap (addOver w s m)).val i 0)
        refine ⟨s'', ?_, g2, ?_⟩
        · simp only [Bool.not_false, if_true]
          rw [g1]; rfl
        · simp only [hv, and_self, if_true]
          exact g3

open Classical in
/-- `Transpose` and `Apply` into another object. -/
theorem cross_fills {w : World T} {s out : Ref} {mask : Mask} {l : Nat} {u : T → T}
    (hs : (w.heap s).WF) (h0 : EmptyVec w out l) (hso : s ≠ out)
    (hshape : (w.heap s).rows = (w.heap out).cols ∧ (w.heap s).cols = (w.heap out).rows)
    (hF : mask.Fits w out) (hS : mask.Sound w)
    (hsq : (w.heap out).rows = (w.heap out).cols ∨ mask.Blank) (hmo : mask ≠ .ref out)
    (hgas : (w.heap s).nvalues ≤ w.gas) (hc : w.cancel = none) :
    Filled w out l (fun i => if (w.heap s).Visits 0 i ∧ mask.bit w 0 i = false then u ((w.heap s).val 0 i) else 0)
      ((forEach s (some ()) (fun r c value => do
        let e ← (mask.resolve w out).element r c
        if !e then M.set out c r (u value)
        pure none) >>= fun _ => pure ()) w) := by
  obtain ⟨r0, c0⟩ := h0.rows
  refine alongRow hso hs (hshape.2.trans r0) (hshape.1.trans c0) hgas h0 hc ?_ ?_
  · intro i _ hv
    simp only [hv, false_and, if_false]
    exact isZero_zero
  · intro i hi hv s' xs hl hrep hx
    have e2 := Mask.element_apart hS hmo (i := 0) (j := i) (by
      rcases hsq with hsq | hsq
      · exact hF.in (by omega) (by omega)
      · exact hsq.covers _ _) (.svec s') none
    rw [bind_ok e2]
    cases hb : mask.bit w 0 i with
    | true =>
      refine ⟨s', rfl, hl, ?_⟩
      simp only [Bool.true_eq_false, and_false, if_false, midOf_zero, List.append_nil]
      exact hrep
    | false =>
      obtain ⟨s'', g1, g2, g3⟩ := set_push (w := w) (out := out) (c := none) hl hrep hx hi (u ((w.heap s).val 0 i))
      refine ⟨s'', ?_, g2, ?_⟩
      · simp only [Bool.not_false, if_true]
        rw [bind_ok g1]; rfl
      · simp only [hv, and_self, if_true]
        exact g3

theorem multiply_fills {w : World T} {s m out : Ref} {mask : Mask} {l : Nat}
    (hs : (w.heap s).WF) (hm : (w.heap m).WF) (h0 : EmptyVec w out l)
    (h1 : (w.heap m).rows = (w.heap s).cols) (h2 : (w.heap out).rows = (w.heap s).rows)
    (h3 : (w.heap out).cols = (w.heap m).cols) (hF : mask.Fits w out) (hS : mask.Sound w) (hmo : mask ≠ .ref out)
    (hso : s ≠ out) (hmo' : m ≠ out) (hc : w.cancel = none) :
    Filled w out l (fun i => if mask.bit w i 0 then 0 else
        dotSum (w.heap s).cols ((w.heap s).rowVal i) ((w.heap m).colVal 0)) (Ops.multiply s m mask out w) := by
  obtain ⟨r0, c0⟩ := h0.rows
  obtain ⟨s0, a1, a2, a3⟩ := h0
  have hw0 : w = w.upd out (.svec s0) none := by
    conv_lhs => rw [← w.upd_self out]
    rw [a1, hc]
  have hl : (w.heap s).rows = l := h2.symm.trans r0
  have hmc : (w.heap m).cols = 1 := h3.symm.trans c0
  let f : Nat → T := fun i => if mask.bit w i 0 then 0 else
        dotSum (w.heap s).cols ((w.heap s).rowVal i) ((w.heap m).colVal 0)
  let J : Nat → World T → Prop := fun r w' =>
    ∃ s', w' = w.upd out (.svec s') none ∧ s'.l = l ∧ SVec.Rep s' (SVec.nz f r)
  have hloop : ∃ x w', forN (w.heap s).rows 0 (fun r => do
      let rows ← ofObj s (fun x => x.rowsAt r)
      let mc ← colsOf m
      forN mc 0 (fun c => do
        let column ← ofObj m (fun x => x.columnsAt c)
        match ← dot rows column rows.length 0 0 with
        | none => pure (some ())
        | some sum => do
          let e ← (mask.resolve w out).element r c
          if !e then M.set out r c sum
          pure none)) w = .ok x w' ∧
      ((x = none ∧ J (0 + (w.heap s).rows) w') ∨ ∃ b : Unit, x = some b ∧ False) := by
    refine forN_rule (J := J) (Q := fun _ _ => False) _ _ _ ?_ ⟨s0, hw0, a2, by simpa [SVec.nz] using a3⟩
    rintro r - hr w' ⟨s', rfl, hl', hrep⟩
    have hr : r < l := by omega
    obtain ⟨v, e1, e2, e3⟩ := Mat.rowsAt_read hs (i := r) (by omega)
    obtain ⟨col, k1, k2, k3⟩ := Mat.columnsAt_read hm (j := 0) (by omega)
    have e1' : ((w.upd out (.svec s') none).heap s).rowsAt r = .ok v := by rw [World.upd_ne _ _ _ hso]; exact e1
    have k1' : ((w.upd out (.svec s') none).heap m).columnsAt (0 : Nat) = .ok col := by
      rw [World.upd_ne _ _ _ hmo']; exact k1
    rw [bind_ok (ofObj_ok e1'), bind_ok (colsOf_apply m _), World.upd_ne _ _ _ hmo', hmc]
    obtain ⟨x, c2, d1, d2, d3⟩ := dotBy_ok (fun _ s a b => s + a * b) (rows := v) (column := col) (n := (w.heap s).cols)
      (a := (w.heap s).rowVal r) (b := (w.heap m).colVal 0) e3
      (fun l hl => k3 l (by rw [h1]; exact hl)) (w.heap s).cols 0 (by omega) (w.upd out (.svec s') none)
    have hc2 : c2 = none := d2 rfl
    subst hc2
    have d1' : dot v col v.length 0 0 (w.upd out (.svec s') none) = .ok x (w.upd out (.svec s') none) := by
      rw [dot_eq, e2]; exact d1
    have hel := Mask.element_apart hS hmo (i := r) (j := 0) (hF.in (by rw [r0]; exact hr) (by rw [c0]; exact Nat.one_pos)) (.svec s') none
    have hx : x = some (dotSum (w.heap s).cols ((w.heap s).rowVal r) ((w.heap m).colVal 0)) := by
      rcases d3 with ⟨-, h⟩ | h
      · simp at h
      · exact h
    subst hx
    have hnz := SVec.nz_lt f r
    unfold forN forN
    have k1o := ofObj_ok (p := m) (f := fun x : Mat T => x.columnsAt ((0 : Nat) : Int)) k1'
    simp only [bind_apply, k1o, d1', hel]
    cases hb : mask.bit w r 0 with
    | true =>
      refine ⟨none, _, rfl, fun _ => ⟨s', rfl, hl', ?_⟩, by simp⟩
      rw [SVec.nz_succ, show f r = 0 by simp only [f, hb, if_true], midOf_zero, List.append_nil]
      exact hrep
    | false =>
      obtain ⟨s'', g1, g2, g3⟩ := set_push (w := w) (out := out) (c := none) hl' hrep hnz hr
        (dotSum (w.heap s).cols ((w.heap s).rowVal r) ((w.heap m).colVal 0))
      refine ⟨none, w.upd out (.svec s'') none, ?_, fun _ => ⟨s'', rfl, g2, ?_⟩, by simp⟩
      · simp only [Bool.not_false, if_true]
        rw [bind_ok g1]; rfl
      · rw [SVec.nz_succ, show f r = dotSum (w.heap s).cols ((w.heap s).rowVal r) ((w.heap m).colVal 0) by
          simp only [f, hb]; simp]
        exact g3
  have hrun : Ops.multiply s m mask out w = (forN (w.heap s).rows 0 (fun r => do
      let rows ← ofObj s (fun x => x.rowsAt r)
      let mc ← colsOf m
      forN mc 0 (fun c => do
        let column ← ofObj m (fun x => x.columnsAt c)
        match ← dot rows column rows.length 0 0 with
        | none => pure (some ())
        | some sum => do
          let e ← (mask.resolve w out).element r c
          if !e then M.set out r c sum
          pure none)) >>= fun _ => pure ()) w := by
    unfold Ops.multiply
    simp only [bind_apply, colsOf_apply, rowsOf_apply, h1, ne_eq, not_true, if_false, pure_apply,
      Mask.orEmpty_apply, Mask.check_ok hF]
    rfl
  rw [hrun]
  obtain ⟨x, w', k1, k2⟩ := hloop
  rcases k2 with ⟨rfl, s', rfl, k3, k4⟩ | ⟨b, -, hf⟩
  · refine ⟨s', by rw [bind_ok k1]; rfl, k3, ?_⟩
    rw [Nat.zero_add, hl] at k4
    exact k4
  · exact hf.elim

end Ops

end GB
