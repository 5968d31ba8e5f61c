import Verif.Lemmas.World
import Verif.SpecOps

/-!
# Loops that write one cell of the output per entry
-/

namespace GB

set_option linter.unusedSectionVars false
set_option linter.unusedSimpArgs false

variable {T : Type} [GoNum T]

namespace World
@[simp] theorem upd_out (w : World T) (out : Ref) (m : Mat T) (c : Option Nat) :
    (w.upd out m c).heap out = m := by simp [upd]
theorem upd_ne (w : World T) {out p : Ref} (m : Mat T) (c : Option Nat) (h : p ≠ out) :
    (w.upd out m c).heap p = w.heap p := by simp [upd, h]
@[simp] theorem upd_next (w : World T) (out : Ref) (m : Mat T) (c : Option Nat) :
    (w.upd out m c).next = w.next := rfl
@[simp] theorem upd_gas (w : World T) (out : Ref) (m : Mat T) (c : Option Nat) :
    (w.upd out m c).gas = w.gas := rfl
@[simp] theorem upd_reg (w : World T) (out : Ref) (m : Mat T) (c : Option Nat) :
    (w.upd out m c).reg = w.reg := rfl
@[simp] theorem upd_cancel (w : World T) (out : Ref) (m : Mat T) (c : Option Nat) :
    (w.upd out m c).cancel = c := rfl
@[simp] theorem upd_upd (w : World T) (out : Ref) (m m' : Mat T) (c c' : Option Nat) :
    (w.upd out m c).upd out m' c' = w.upd out m' c' := by simp [upd]
theorem upd_self (w : World T) (out : Ref) : w.upd out (w.heap out) w.cancel = w := by simp [upd]
theorem upd_heap (w : World T) (out : Ref) (m m' : Mat T) (c : Option Nat) :
    { w.upd out m c with heap := Function.update (w.upd out m c).heap out m' } = w.upd out m' c := by
  simp [upd]
end World

/-- The coordinates of an entry. -/
def coord (e : Nat × Nat × T) : Nat × Nat := (e.1, e.2.1)

variable [GoStore T]

/-- After the entries `done`: `act e` is what was written at `pos e` (`none`: nothing). -/
structure Scat (m : Mat T) (pos : Nat × Nat × T → Nat × Nat) (act : Nat × Nat × T → Option T)
    (done : List (Nat × Nat × T)) (m' : Mat T) : Prop where
  wf : m'.WF
  same : Mat.Same m' m
  hit : ∀ e ∈ done, m'.val (pos e).1 (pos e).2 = (act e).getD (m.val (pos e).1 (pos e).2)
  miss : ∀ a b, a < m.rows → b < m.cols → (∀ e ∈ done, pos e ≠ (a, b)) → m'.val a b = m.val a b

theorem Scat.init {m : Mat T} (h : m.WF) (pos : Nat × Nat × T → Nat × Nat)
    (act : Nat × Nat × T → Option T) : Scat m pos act [] m :=
  ⟨h, Mat.Same.refl m, by simp, fun _ _ _ _ _ => rfl⟩

theorem Scat.step {m m' m'' : Mat T} {pos : Nat × Nat × T → Nat × Nat}
    {act : Nat × Nat × T → Option T} {done : List (Nat × Nat × T)} {e : Nat × Nat × T}
    (h : Scat m pos act done m') (hr : (pos e).1 < m.rows) (hc : (pos e).2 < m.cols)
    (hd : ∀ a ∈ done, pos a ≠ pos e) (hin : ∀ a ∈ done, (pos a).1 < m.rows ∧ (pos a).2 < m.cols)
    (hw : (act e = none ∧ m'' = m') ∨ ∃ v, act e = some v ∧ Mat.Wrote m' m'' (pos e).1 (pos e).2 v) :
    Scat m pos act (done ++ [e]) m'' := by
  have hold : m'.val (pos e).1 (pos e).2 = m.val (pos e).1 (pos e).2 := h.miss _ _ hr hc hd
  rcases hw with ⟨ha, rfl⟩ | ⟨v, ha, hw⟩
  · refine ⟨h.wf, h.same, ?_, ?_⟩
    · intro a hm
      rw [List.mem_append, List.mem_singleton] at hm
      rcases hm with hm | rfl
      · exact h.hit a hm
      · rw [ha, hold]; rfl
    · intro a b h1 h2 hn
      exact h.miss a b h1 h2 (fun e he => hn e (by simp [he]))
  · refine ⟨hw.wf, hw.same.trans h.same, ?_, ?_⟩
    · intro a hm
      rw [List.mem_append, List.mem_singleton] at hm
      rcases hm with hm | rfl
      · rw [hw.miss _ _ (by rw [h.same.2.1]; exact (hin a hm).1) (by rw [h.same.2.2]; exact (hin a hm).2)]
        · exact h.hit a hm
        · intro hc'; exact hd a hm (Prod.ext hc'.1 hc'.2)
      · rw [ha, hw.hit]; rfl
    · intro a b h1 h2 hn
      rw [hw.miss a b (by rw [h.same.2.1]; exact h1) (by rw [h.same.2.2]; exact h2)]
      · exact h.miss a b h1 h2 (fun e he => hn e (by simp [he]))
      · intro hc'; exact hn e (by simp) (Prod.ext hc'.1.symm hc'.2.symm)

namespace M

/-- The outcome of a scattering loop. -/
def Scattered (w : World T) (out : Ref) (pos : Nat × Nat × T → Nat × Nat)
    (act : Nat × Nat × T → Option T) (es : List (Nat × Nat × T)) (r : Res T (Option Unit)) : Prop :=
  ∃ x m' c done rest, r = .ok x (w.upd out m' c) ∧ es = done ++ rest ∧
    Scat (w.heap out) pos act done m' ∧
    ((x = none ∧ rest = []) ∨ (x = some () ∧ c = some 0)) ∧ (w.cancel = none → c = none)

/-- The output is not the object iterated over. -/
theorem scatter {w : World T} {over out : Ref} {es : List (Nat × Nat × T)}
    {body : Nat → Nat → T → M T (Option Unit)} {pos : Nat × Nat × T → Nat × Nat}
    {act : Nat × Nat × T → Option T} (hne : over ≠ out)
    (hY : Yields Mat.Iter.hasNext (w.heap over).step (w.heap over).iter es) (hg : es.length ≤ w.gas)
    (hwf : (w.heap out).WF)
    (hin : ∀ e ∈ es, (pos e).1 < (w.heap out).rows ∧ (pos e).2 < (w.heap out).cols)
    (hd : es.Pairwise (fun a b => pos a ≠ pos b))
    (hbody : ∀ e ∈ es, ∀ m' c, m'.WF → Mat.Same m' (w.heap out) →
      m'.val (pos e).1 (pos e).2 = (w.heap out).val (pos e).1 (pos e).2 →
      ∃ m'', body e.1 e.2.1 e.2.2 (w.upd out m' c) = .ok none (w.upd out m'' c) ∧
        ((act e = none ∧ m'' = m') ∨ ∃ v, act e = some v ∧ Mat.Wrote m' m'' (pos e).1 (pos e).2 v)) :
    Scattered w out pos act es (forEach over (some ()) body w) := by
  rw [forEach_eq]
  let J : Mat.Iter → List (Nat × Nat × T) → World T → Prop := fun it rest w' =>
    ∃ m' c done, w' = w.upd out m' c ∧ es = done ++ rest ∧ Scat (w.heap out) pos act done m' ∧
      (w.cancel = none → c = none) ∧ Yields Mat.Iter.hasNext (w.heap over).step it rest
  obtain ⟨x, w', h1, h2⟩ := loopIter_rule (p := over) (b0 := ()) (body := body) (J := J)
    (Q := fun _ _ => False)
    (by rintro it w' ⟨m', c, done, -, -, -, -, hy⟩; exact hy)
    (by
      rintro it rest w' ⟨m', c, done, rfl, h2, h3, h4, h5⟩
      exact ⟨m', tick c, done, rfl, h2, h3, fun h => by rw [h4 h]; rfl, h5⟩)
    (by
      rintro it e rest w' ⟨m', c, done, rfl, h2, h3, h4, h5, it', h6, h7⟩
      have he : e ∈ es := by rw [h2]; simp
      have hdone : ∀ a ∈ done, pos a ≠ pos e := by
        intro a ha
        rw [h2, List.pairwise_append] at hd
        exact hd.2.2 a ha e (by simp)
      obtain ⟨m'', h8, h9⟩ := hbody e he m' c h3.wf h3.same
        (h3.miss _ _ (hin e he).1 (hin e he).2 hdone)
      refine ⟨h5, it', by rw [World.upd_ne _ _ _ hne]; exact h6, none, _, h8, fun _ => ?_,
        fun b hb => by simp at hb⟩
      exact ⟨m'', c, done ++ [e], rfl, by simp [h2],
        h3.step (hin e he).1 (hin e he).2 hdone (fun a ha => hin a (by rw [h2]; simp [ha])) h9, h4, h7⟩)
    w.gas (w.heap over).iter es w hg
    ⟨w.heap out, w.cancel, [], (w.upd_self out).symm, rfl, Scat.init hwf pos act, id, hY⟩
  rcases h2 with ⟨rfl, it', m', c, done, e1, e2, e3, e4, -⟩ | ⟨b, -, hf⟩ |
    ⟨rfl, hc, it', e, rest', m', c, done, e1, e2, e3, e4, -⟩
  · exact ⟨none, m', c, done, [], by rw [h1, e1], e2, e3, Or.inl ⟨rfl, rfl⟩, e4⟩
  · exact hf.elim
  · refine ⟨some (), m', c, done, e :: rest', by rw [h1, e1], e2, e3, Or.inr ⟨rfl, ?_⟩, e4⟩
    rw [e1] at hc; exact hc

/-- The output is the object iterated over: the entry itself is overwritten by a storable value. -/
theorem scatter_alias {w : World T} {out : Ref} {es : List (Nat × Nat × T)}
    {body : Nat → Nat → T → M T (Option Unit)}
    {act : Nat × Nat × T → Option T}
    (hY : Mat.MapAt (w.heap out) (w.heap out).iter es) (hg : es.length ≤ w.gas)
    (hin : ∀ e ∈ es, (coord e).1 < (w.heap out).rows ∧ (coord e).2 < (w.heap out).cols)
    (hd : es.Pairwise (fun a b => coord a ≠ coord b))
    (hst : ∀ e ∈ es, ∀ v, act e = some v → Mat.Storable (w.heap out).kind v)
    (hbody : ∀ e ∈ es, ∀ m' c, m'.WF → Mat.Same m' (w.heap out) →
      m'.val (coord e).1 (coord e).2 = (w.heap out).val (coord e).1 (coord e).2 →
      ∃ m'', body e.1 e.2.1 e.2.2 (w.upd out m' c) = .ok none (w.upd out m'' c) ∧
        ((act e = none ∧ m'' = m') ∨ ∃ v, act e = some v ∧ Mat.Wrote m' m'' (coord e).1 (coord e).2 v)) :
    Scattered w out coord act es (forEach out (some ()) body w) := by
  rw [forEach_eq]
  let J : Mat.Iter → List (Nat × Nat × T) → World T → Prop := fun it rest w' =>
    ∃ m' c done, w' = w.upd out m' c ∧ es = done ++ rest ∧ Scat (w.heap out) coord act done m' ∧
      (w.cancel = none → c = none) ∧ Mat.MapAt m' it rest
  obtain ⟨x, w', h1, h2⟩ := loopIter_rule (p := out) (b0 := ()) (body := body) (J := J)
    (Q := fun _ _ => False)
    (by rintro it w' ⟨m', c, done, -, -, -, -, hy⟩; exact hy.nil)
    (by
      rintro it rest w' ⟨m', c, done, rfl, h2, h3, h4, h5⟩
      exact ⟨m', tick c, done, rfl, h2, h3, fun h => by rw [h4 h]; rfl, h5⟩)
    (by
      rintro it e rest w' ⟨m', c, done, rfl, h2, h3, h4, h5⟩
      obtain ⟨h5, it', h6, h7, -, -, -, h10⟩ := h5.cons
      have he : e ∈ es := by rw [h2]; simp
      have hdone : ∀ a ∈ done, coord a ≠ coord e := by
        intro a ha
        rw [h2, List.pairwise_append] at hd
        exact hd.2.2 a ha e (by simp)
      obtain ⟨m'', h8, h9⟩ := hbody e he m' c h3.wf h3.same
        (h3.miss _ _ (hin e he).1 (hin e he).2 hdone)
      refine ⟨h5, it', by rw [World.upd_out]; exact h6, none, _, h8, fun _ => ?_,
        fun b hb => by simp at hb⟩
      refine ⟨m'', c, done ++ [e], rfl, by simp [h2],
        h3.step (hin e he).1 (hin e he).2 hdone (fun a ha => hin a (by rw [h2]; simp [ha])) h9, h4, ?_⟩
      rcases h9 with ⟨-, rfl⟩ | ⟨v, ha, hw⟩
      · exact h7
      · obtain ⟨m3, -, g2, g3⟩ := h10 v (by rw [h3.same.1]; exact hst e he v ha)
        rw [hw.unique g3]; exact g2)
    w.gas (w.heap out).iter es w hg
    ⟨w.heap out, w.cancel, [], (w.upd_self out).symm, rfl, Scat.init hY.wf coord act, id, hY⟩
  rcases h2 with ⟨rfl, it', m', c, done, e1, e2, e3, e4, -⟩ | ⟨b, -, hf⟩ |
    ⟨rfl, hc, it', e, rest', m', c, done, e1, e2, e3, e4, -⟩
  · exact ⟨none, m', c, done, [], by rw [h1, e1], e2, e3, Or.inl ⟨rfl, rfl⟩, e4⟩
  · exact hf.elim
  · refine ⟨some (), m', c, done, e :: rest', by rw [h1, e1], e2, e3, Or.inr ⟨rfl, ?_⟩, e4⟩
    rw [e1] at hc; exact hc

/-- The same for a `Map` loop: `f` computes the new value of the entry without changing anything. -/
theorem scatter_map {w : World T} {out : Ref} {es : List (Nat × Nat × T)} {oc : Bool}
    {f : Nat → Nat → T → M T T} {g : Nat × Nat × T → T}
    (hY : Mat.MapAt (w.heap out) (w.heap out).iter es) (hg : es.length ≤ w.gas)
    (hin : ∀ e ∈ es, (coord e).1 < (w.heap out).rows ∧ (coord e).2 < (w.heap out).cols)
    (hd : es.Pairwise (fun a b => coord a ≠ coord b))
    (hst : ∀ e ∈ es, Mat.Storable (w.heap out).kind (g e))
    (hoc : oc = false → w.cancel = none)
    (hf : ∀ e ∈ es, ∀ m' c, m'.WF → Mat.Same m' (w.heap out) →
      m'.val (coord e).1 (coord e).2 = (w.heap out).val (coord e).1 (coord e).2 →
      f e.1 e.2.1 e.2.2 (w.upd out m' c) = .ok (g e) (w.upd out m' c)) :
    ∃ x m' c done rest, forMap out oc f w = .ok x (w.upd out m' c) ∧ es = done ++ rest ∧
      Scat (w.heap out) coord (fun e => some (g e)) done m' ∧
      ((x = false ∧ rest = []) ∨ (x = true ∧ c = some 0)) ∧ (w.cancel = none → c = none) := by
  rw [forMap_eq]
  let J : Mat.Iter → List (Nat × Nat × T) → World T → Prop := fun it rest w' =>
    ∃ m' c done, w' = w.upd out m' c ∧ es = done ++ rest ∧
      Scat (w.heap out) coord (fun e => some (g e)) done m' ∧
      (w.cancel = none → c = none) ∧ Mat.MapAt m' it rest
  obtain ⟨x, w', h1, h2⟩ := loopMap_rule (p := out) (oc := oc) (f := f) (J := J)
    (by rintro it w' ⟨m', c, done, -, -, -, -, hy⟩; exact hy.nil)
    (by
      rintro it rest w' ⟨m', c, done, rfl, h2, h3, h4, h5⟩
      exact ⟨m', tick c, done, rfl, h2, h3, fun h => by rw [h4 h]; rfl, h5⟩)
    (by
      rintro ho it rest w' ⟨m', c, done, rfl, h2, h3, h4, h5⟩
      simp [h4 (hoc ho)])
    (by
      rintro it e rest w' ⟨m', c, done, rfl, h2, h3, h4, h5⟩
      obtain ⟨h5, it', h6, h7, -, -, -, h10⟩ := h5.cons
      have he : e ∈ es := by rw [h2]; simp
      have hdone : ∀ a ∈ done, coord a ≠ coord e := by
        intro a ha
        rw [h2, List.pairwise_append] at hd
        exact hd.2.2 a ha e (by simp)
      have h8 := hf e he m' c h3.wf h3.same (h3.miss _ _ (hin e he).1 (hin e he).2 hdone)
      obtain ⟨m3, g1, g2, g3⟩ := h10 (g e) (by rw [h3.same.1]; exact hst e he)
      refine ⟨h5, it', by rw [World.upd_out]; exact h6, g e, _, h8, m3, by rw [World.upd_out]; exact g1, ?_⟩
      rw [World.upd_heap]
      exact ⟨m3, c, done ++ [e], rfl, by simp [h2],
        h3.step (hin e he).1 (hin e he).2 hdone (fun a ha => hin a (by rw [h2]; simp [ha]))
          (Or.inr ⟨g e, rfl, g3⟩), h4, g2⟩)
    w.gas (w.heap out).iter es w hg
    ⟨w.heap out, w.cancel, [], (w.upd_self out).symm, rfl, Scat.init hY.wf coord _, id, hY⟩
  rcases h2 with ⟨rfl, it', m', c, done, e1, e2, e3, e4, -⟩ |
    ⟨rfl, hc, it', e, rest', m', c, done, e1, e2, e3, e4, -⟩
  · exact ⟨false, m', c, done, [], by rw [h1, e1], e2, e3, Or.inl ⟨rfl, rfl⟩, e4⟩
  · refine ⟨true, m', c, done, e :: rest', by rw [h1, e1], e2, e3, Or.inr ⟨rfl, ?_⟩, e4⟩
    rw [e1] at hc; exact hc

end M
end GB
