import Verif.Model.Amid
import Verif.Lemmas.Steps
import Verif.Lemmas.Mat
import Verif.Props.Storage
import Verif.Lemmas.History

/-!
# Programs that ask a changing mask about every cell at most once
-/

namespace GB.Prog

set_option linter.unusedSectionVars false

variable {T : Type} [GoNum T] {q : Ref} {μ : Nat → Mat T}

theorem amid_bind {α β : Type} (x : Prog T α) (f : α → Prog T β) (t : Nat) (w : World T) :
    (x >>= f).amid q μ t w = match x.amid q μ t w with
      | (.ok a w', t') => (f a).amid q μ t' w'
      | (.panic w', t') => (.panic w', t')
      | (.hang w', t') => (.hang w', t') := by
  rw [bind_def]
  induction x generalizing t w with
  | ret a => rfl
  | fail => rfl
  | hang => rfl
  | poll k ih =>
    simp only [bind', amid]
    cases M.poll w with
    | ok b w' => exact ih b _ w'
    | panic w' => rfl
    | hang w' => rfl
  | names k ih => exact ih w.reg _ w
  | call p g k ih =>
    simp only [bind', amid]
    by_cases hp : p = q
    · simp only [hp, if_true]
      cases g (μ t) with
      | ok b => exact ih b.1 _ w
      | panic => rfl
      | hang => rfl
    · simp only [hp, if_false]
      cases M.withObj p g w with
      | ok b w' => exact ih b _ w'
      | panic w' => rfl
      | hang w' => rfl

/-- The object `m` answers the question `e` (a cell and a moment) as the mask did. -/
def Agree (μ : Nat → Mat T) (m : Mat T) (e : Nat × Nat × Nat) : Prop :=
  (∃ b m', m.element e.1 e.2.1 = .ok (b, m) ∧ (μ e.2.2).element e.1 e.2.1 = .ok (b, m')) ∨
  (m.element e.1 e.2.1 = .panic ∧ (μ e.2.2).element e.1 e.2.1 = .panic)

/-- The cell of a question. -/
def cell (e : Nat × Nat × Nat) : Nat × Nat := (e.1, e.2.1)

/-- The program asks the mask about cells in `P` only, each at most once; `L` are the questions. With any object in
place of the mask that answers them alike it does the same. When it returns, `I` holds. -/
def Does (q : Ref) (μ : Nat → Mat T) {α : Type} (P : Nat → Nat → Prop) (I : α → World T → Prop) (x : Prog T α) (t : Nat)
    (w : World T) : Prop :=
  ∃ L : List (Nat × Nat × Nat),
    (L.map cell).Nodup ∧ (∀ e ∈ L, P e.1 e.2.1 ∧ t ≤ e.2.2 ∧ e.2.2 < (x.amid q μ t w).2) ∧ t ≤ (x.amid q μ t w).2 ∧
    (∀ m : Mat T, m.rows = (μ 0).rows → m.cols = (μ 0).cols → (∀ e ∈ L, Agree μ m e) →
      x.run (w.with q m) = (x.amid q μ t w).1.with q m) ∧
    ∀ a w', (x.amid q μ t w).1 = .ok a w' → I a w'

variable {α β : Type} {P P' : Nat → Nat → Prop} {I I' : α → World T → Prop} {J : β → World T → Prop} {t : Nat} {w : World T}

theorem Does.mono {x : Prog T α} (h : Does q μ P I x t w) (hP : ∀ r c, P r c → P' r c)
    (hI : ∀ a w, I a w → I' a w) : Does q μ P' I' x t w := by
  obtain ⟨L, h1, h2, h3, h4, h5⟩ := h
  exact ⟨L, h1, fun e he => ⟨hP _ _ (h2 e he).1, (h2 e he).2⟩, h3, h4, fun a w' e => hI _ _ (h5 a w' e)⟩

theorem Does.bind' {x : Prog T α} {f : α → Prog T β} (hx : Does q μ P I x t w)
    (hf : ∀ a w' t', I a w' → Does q μ P' J (f a) t' w') (hd : ∀ r c, P r c → ¬ P' r c) :
    Does q μ (fun r c => P r c ∨ P' r c) J (x >>= f) t w := by
  obtain ⟨L, h1, h2, h3, h4, h5⟩ := hx
  have hb := amid_bind (q := q) (μ := μ) x f t w
  rcases hx : x.amid q μ t w with ⟨o, t'⟩
  rw [hx] at hb h2 h3 h4 h5
  simp only at h2 h3 h4 h5
  cases o with
  | ok a w' =>
    obtain ⟨L', k1, k2, k3, k4, k5⟩ := hf a w' t' (h5 a w' rfl)
    simp only at hb
    refine ⟨L ++ L', ?_, ?_, ?_, ?_, ?_⟩
    · rw [List.map_append, List.nodup_append]
      refine ⟨h1, k1, ?_⟩
      intro c hc c' hc' he
      obtain ⟨e, he1, rfl⟩ := List.mem_map.1 hc
      obtain ⟨e', he1', rfl⟩ := List.mem_map.1 hc'
      simp only [cell, Prod.mk.injEq] at he
      refine hd _ _ (h2 e he1).1 ?_
      rw [he.1, he.2]
      exact (k2 e' he1').1
    · intro e he
      rw [hb]
      rcases List.mem_append.1 he with he | he
      · exact ⟨.inl (h2 e he).1, (h2 e he).2.1, lt_of_lt_of_le (h2 e he).2.2 k3⟩
      · exact ⟨.inr (k2 e he).1, le_trans h3 (k2 e he).2.1, (k2 e he).2.2⟩
    · rw [hb]; exact le_trans h3 k3
    · intro m hr hc hL
      rw [run_bind, hb]
      have e1 := h4 m hr hc (fun e he => hL e (List.mem_append_left _ he))
      have e2 := k4 m hr hc (fun e he => hL e (List.mem_append_right _ he))
      show M.bind' x.run (fun a => (f a).run) (w.with q m) = _
      simp only [M.bind', e1, Res.with]
      exact e2
    · rw [hb]; exact k5
  | panic w' =>
    simp only at hb
    refine ⟨L, h1, ?_, ?_, ?_, ?_⟩
    · intro e he; rw [hb]; exact ⟨.inl (h2 e he).1, (h2 e he).2⟩
    · rw [hb]; exact h3
    · intro m hr hc hL
      rw [run_bind, hb]
      have e1 := h4 m hr hc hL
      show M.bind' x.run (fun a => (f a).run) (w.with q m) = _
      simp only [M.bind', e1, Res.with]
    · rw [hb]; intro a w'' h; simp at h
  | hang w' =>
    simp only at hb
    refine ⟨L, h1, ?_, ?_, ?_, ?_⟩
    · intro e he; rw [hb]; exact ⟨.inl (h2 e he).1, (h2 e he).2⟩
    · rw [hb]; exact h3
    · intro m hr hc hL
      rw [run_bind, hb]
      have e1 := h4 m hr hc hL
      show M.bind' x.run (fun a => (f a).run) (w.with q m) = _
      simp only [M.bind', e1, Res.with]
    · rw [hb]; intro a w'' h; simp at h

/-- No cell. -/
abbrev Nowhere : Nat → Nat → Prop := fun _ _ => False

/-- A first part that asks nothing. -/
theorem Does.seq {x : Prog T α} {f : α → Prog T β} (hx : Does q μ Nowhere I x t w)
    (hf : ∀ a w' t', I a w' → Does q μ P J (f a) t' w') : Does q μ P J (x >>= f) t w :=
  (hx.bind' hf (fun _ _ h => h.elim)).mono (fun _ _ h => h.resolve_left id) (fun _ _ h => h)

/-- A second part that asks nothing. -/
theorem Does.seq' {x : Prog T α} {f : α → Prog T β} (hx : Does q μ P I x t w)
    (hf : ∀ a w' t', I a w' → Does q μ Nowhere J (f a) t' w') : Does q μ P J (x >>= f) t w :=
  (hx.bind' hf (fun _ _ _ h => h)).mono (fun _ _ h => h.resolve_right id) (fun _ _ h => h)

theorem Does.ret (a : α) (h : I a w) : Does q μ P I (Prog.ret a : Prog T α) t w :=
  ⟨[], by simp, by simp, le_refl _, fun _ _ _ _ => rfl, fun a' w' e => by cases e; exact h⟩

theorem Does.pure (a : α) (h : I a w) : Does q μ P I (Pure.pure a : Prog T α) t w := Does.ret a h

theorem Does.fail : Does q μ P I (Prog.fail : Prog T α) t w :=
  ⟨[], by simp, by simp, le_refl _, fun _ _ _ _ => rfl, fun a' w' e => by cases e⟩

theorem Does.hang : Does q μ P I (Prog.hang : Prog T α) t w :=
  ⟨[], by simp, by simp, le_refl _, fun _ _ _ _ => rfl, fun a' w' e => by cases e⟩

theorem Does.lift (o : Out α) (h : ∀ a, o = .ok a → I a w) : Does q μ P I (Prog.lift o : Prog T α) t w := by
  cases o with
  | ok a => exact Does.ret a (h a rfl)
  | panic => exact Does.fail
  | hang => exact Does.hang

theorem poll_with (w : World T) : ∃ b c, M.poll w = .ok b { w with cancel := c } ∧
    ∀ m : Mat T, M.poll (w.with q m) = .ok b (({ w with cancel := c } : World T).with q m) := by
  obtain ⟨h, n, c, r, g⟩ := w
  rcases c with _ | _ | c
  · exact ⟨false, none, rfl, fun _ => rfl⟩
  · exact ⟨true, some 0, rfl, fun _ => rfl⟩
  · exact ⟨false, some c, rfl, fun _ => rfl⟩

theorem Does.poll {I : Bool → World T → Prop} (h : ∀ b c, I b { w with cancel := c }) : Does q μ P I (Prog.poll Prog.ret : Prog T Bool) t w := by
  obtain ⟨b, c, h1, h2⟩ := poll_with (q := q) w
  have e : (Prog.poll Prog.ret : Prog T Bool).amid q μ t w = (.ok b { w with cancel := c }, t + 1) := by
    simp only [amid, h1]
  refine ⟨[], by simp, by simp, by rw [e]; exact Nat.le_succ t, fun m _ _ _ => ?_, fun a w' e' => ?_⟩
  · rw [e]
    show M.bind' M.poll (fun b => run (Prog.ret b)) (w.with q m) = _
    simp only [M.bind', h2]
    rfl
  · rw [e] at e'
    cases e'
    exact h b c

/-- A method call on an object that is not the mask. -/
theorem Does.call {p : Ref} {f : Mat T → Out (β × Mat T)} (hp : p ≠ q)
    (h : ∀ b m, f (w.heap p) = .ok (b, m) → J b { w with heap := Function.update w.heap p m }) :
    Does q μ P J (Prog.call p f Prog.ret : Prog T β) t w := by
  have hh : ∀ m : Mat T, (w.with q m).heap p = w.heap p := fun m => Function.update_of_ne hp _ _
  cases hf : f (w.heap p) with
  | ok bm =>
    obtain ⟨b, x⟩ := bm
    have e : (Prog.call p f Prog.ret : Prog T β).amid q μ t w =
        (.ok b { w with heap := Function.update w.heap p x }, t + 1) := by
      simp only [amid, hp, if_false, M.withObj, hf]
    refine ⟨[], by simp, by simp, by rw [e]; exact Nat.le_succ t, fun m _ _ _ => ?_, fun a w' e' => ?_⟩
    · rw [e]
      show M.bind' (M.withObj p f) (fun b => run (Prog.ret b)) (w.with q m) = _
      simp only [M.bind', M.withObj, hh m, hf]
      show Res.ok b _ = Res.ok b _
      congr 1
      simp only [World.with]
      rw [Function.update_comm hp]
    · rw [e] at e'
      cases e'
      exact h b x hf
  | panic =>
    have e : (Prog.call p f Prog.ret : Prog T β).amid q μ t w = (.panic w, t + 1) := by
      simp only [amid, hp, if_false, M.withObj, hf]
    refine ⟨[], by simp, by simp, by rw [e]; exact Nat.le_succ t, fun m _ _ _ => ?_, fun a w' e' => ?_⟩
    · rw [e]
      show M.bind' (M.withObj p f) (fun b => run (Prog.ret b)) (w.with q m) = _
      simp only [M.bind', M.withObj, hh m, hf]
      rfl
    · rw [e] at e'; cases e'
  | hang =>
    have e : (Prog.call p f Prog.ret : Prog T β).amid q μ t w = (.hang w, t + 1) := by
      simp only [amid, hp, if_false, M.withObj, hf]
    refine ⟨[], by simp, by simp, by rw [e]; exact Nat.le_succ t, fun m _ _ _ => ?_, fun a w' e' => ?_⟩
    · rw [e]
      show M.bind' (M.withObj p f) (fun b => run (Prog.ret b)) (w.with q m) = _
      simp only [M.bind', M.withObj, hh m, hf]
      rfl
    · rw [e] at e'; cases e'

theorem Does.ofObj {p : Ref} {f : Mat T → Out β} (hp : p ≠ q) (h : ∀ b, f (w.heap p) = .ok b → J b w) :
    Does q μ P J (Prog.ofObj p f : Prog T β) t w := by
  refine Does.call hp (fun b m hm => ?_)
  cases hf : f (w.heap p) <;> rw [hf] at hm <;> simp at hm
  rw [← hm.2, Function.update_eq_self, ← hm.1]
  exact h _ hf

variable (hμ : ∀ t, (μ t).rows = (μ 0).rows ∧ (μ t).cols = (μ 0).cols)

include hμ

theorem Does.maskRows {I : Nat → World T → Prop} (h : ∀ n, I n w) : Does q μ P I (Prog.maskRows (.ref q) : Prog T Nat) t w := by
  have e : (Prog.maskRows (.ref q) : Prog T Nat).amid q μ t w = (.ok (μ t).rows w, t + 1) := by
    simp only [Prog.maskRows, Prog.rowsOf, Prog.ofObj, amid, if_true]; rfl
  refine ⟨[], by simp, by simp, by rw [e]; exact Nat.le_succ t, fun m hr hc _ => ?_, fun a w' e' => ?_⟩
  · rw [e]
    show Res.ok ((w.with q m).heap q).rows _ = Res.ok _ _
    simp only [World.with, Function.update_self, hr, (hμ t).1, Function.update_idem]
  · rw [e] at e'; cases e'; exact h _

theorem Does.maskCols {I : Nat → World T → Prop} (h : ∀ n, I n w) : Does q μ P I (Prog.maskCols (.ref q) : Prog T Nat) t w := by
  have e : (Prog.maskCols (.ref q) : Prog T Nat).amid q μ t w = (.ok (μ t).cols w, t + 1) := by
    simp only [Prog.maskCols, Prog.colsOf, Prog.ofObj, amid, if_true]; rfl
  refine ⟨[], by simp, by simp, by rw [e]; exact Nat.le_succ t, fun m hr hc _ => ?_, fun a w' e' => ?_⟩
  · rw [e]
    show Res.ok ((w.with q m).heap q).cols _ = Res.ok _ _
    simp only [World.with, Function.update_self, hc, (hμ t).2, Function.update_idem]
  · rw [e] at e'; cases e'; exact h _

omit hμ

theorem Does.element {I : Bool → World T → Prop} (r c : Nat) (h : ∀ b, I b w) :
    Does q μ (fun i j => i = r ∧ j = c) I (Prog.element (.ref q) r c : Prog T Bool) t w := by
  have e2 : (Prog.element (.ref q) r c : Prog T Bool).amid q μ t w = match (μ t).element r c with
      | .ok (b, _) => (.ok b w, t + 1)
      | .panic => (.panic w, t + 1)
      | .hang => (.hang w, t + 1) := by
    simp only [Prog.element, Prog.withObj, amid, if_true]
    cases (μ t).element r c <;> rfl
  have e3 : ((Prog.element (.ref q) r c : Prog T Bool).amid q μ t w).2 = t + 1 := by
    rw [e2]; split <;> rfl
  refine ⟨[(r, c, t)], by simp, ?_, by omega, fun m _ _ hL => ?_, fun a w' e' => ?_⟩
  · intro e he
    rw [List.mem_singleton] at he
    subst he
    exact ⟨⟨rfl, rfl⟩, le_refl _, by rw [e3]; exact Nat.lt_succ_self t⟩
  · have hh : (w.with q m).heap q = m := Function.update_self _ _ _
    show M.bind' (M.withObj q (fun m => m.element r c)) (fun b => run (Prog.ret b)) (w.with q m) = _
    rw [e2]
    rcases hL (r, c, t) (by simp) with ⟨b, m', k1, k2⟩ | ⟨k1, k2⟩
    · simp only at k1 k2
      simp only [M.bind', M.withObj, hh, k1, k2]
      show Res.ok b _ = Res.ok b _
      simp only [World.with, Function.update_idem]
    · simp only at k1 k2
      simp only [M.bind', M.withObj, hh, k1, k2]
      rfl
  · rw [e2] at e'
    split at e' <;> cases e'
    exact h _

theorem Does.ite {b : Prop} [Decidable b] {x y : Prog T α} (h1 : b → Does q μ P I x t w)
    (h2 : ¬ b → Does q μ P I y t w) : Does q μ P I (if b then x else y) t w := by
  split
  · exact h1 ‹_›
  · exact h2 ‹_›

/-- A loop that asks about other cells in each turn. -/
theorem Does.forN {K : World T → Prop} {Q : Nat → Nat → Nat → Prop} {body : Nat → Prog T (Option β)}
    (hd : ∀ i i' r c, i ≠ i' → Q i r c → ¬ Q i' r c) :
    ∀ (n i0 : Nat) (t : Nat) (w : World T), K w →
      (∀ i t w, K w → i0 ≤ i → i < i0 + n → Does q μ (Q i) (fun _ => K) (body i) t w) →
      Does q μ (fun r c => ∃ i, i0 ≤ i ∧ i < i0 + n ∧ Q i r c) (fun _ => K) (Prog.forN n i0 body) t w
  | 0, i0, t, w, hK, _ => Does.pure none hK
  | n + 1, i0, t, w, hK, hb => by
    refine ((hb i0 t w hK (le_refl _) (by omega)).bind'
      (P' := fun r c => ∃ i, i0 + 1 ≤ i ∧ i < i0 + 1 + n ∧ Q i r c) (J := fun _ => K) ?_ ?_).mono ?_ (fun _ _ h => h)
    · intro a w' t' hK'
      cases a with
      | some b => exact Does.pure _ hK'
      | none =>
        exact Does.forN hd n (i0 + 1) t' w' hK' (fun i t w h h1 h2 => hb i t w h (by omega) (by omega))
    · rintro r c h ⟨i, h1, -, h2⟩
      exact hd i0 i r c (by omega) h h2
    · rintro r c (h | ⟨i, h1, h2, h3⟩)
      · exact ⟨i0, le_refl _, by omega, h⟩
      · exact ⟨i, by omega, by omega, h3⟩

/-- The cells of a list of elements. -/
def inList (es : List (Nat × Nat × T)) : Nat → Nat → Prop := fun r c => ∃ e ∈ es, e.1 = r ∧ e.2.1 = c

/-- A loop over the elements of an object that stays as it is, which asks about the cell it is at. -/
theorem Does.loopIter {p : Ref} {m0 : Mat T} {K : World T → Prop} (hp : p ≠ q)
    (hK : ∀ w, K w → w.heap p = m0) (hc : ∀ w c, K w → K { w with cancel := c }) {oc : Option β} {body : Nat → Nat → T → Prog T (Option β)}
    (hb : ∀ r c v t w, K w → Does q μ (fun i j => i = r ∧ j = c) (fun _ => K) (body r c v) t w) :
    ∀ (g : Nat) (it : Mat.Iter) (es : List (Nat × Nat × T)) (t : Nat) (w : World T), K w →
      es.Pairwise (fun a b => ¬ (a.1 = b.1 ∧ a.2.1 = b.2.1)) → Yields Mat.Iter.hasNext m0.step it es →
      Does q μ (inList es) (fun _ => K) (Prog.loopIter p oc body g it) t w
  | 0, it, es, t, w, hw, hd, hy => by
    unfold Prog.loopIter
    exact Does.ite (fun _ => Does.hang) (fun _ => Does.pure _ hw)
  | g + 1, it, es, t, w, hw, hd, hy => by
    unfold Prog.loopIter
    refine Does.ite (fun hn => ?_) (fun _ => Does.pure _ hw)
    refine Does.seq (Does.poll (I := fun _ => K) (fun _ _ => hc _ _ hw)) (fun stop w1 t1 hw1 => ?_)
    refine Does.ite (fun _ => ?_) (fun _ => ?_)
    · cases oc with
      | some b => exact Does.pure _ hw1
      | none => exact Does.loopIter hp hK hc hb g it es t1 w1 hw1 hd hy
    · refine Does.seq (Does.ofObj (J := fun s w' => K w' ∧ m0.step it = .ok s) hp (fun b hs => ⟨hw1, hK _ hw1 ▸ hs⟩))
        (fun s w2 t2 h2 => ?_)
      obtain ⟨hw2, hs⟩ := h2
      cases es with
      | nil => exact absurd hy (by simp [Yields, hn])
      | cons e es =>
        obtain ⟨-, it', h3, h4⟩ := hy
        rw [h3] at hs
        cases hs
        rw [List.pairwise_cons] at hd
        refine ((hb e.1 e.2.1 e.2.2 t2 w2 hw2).bind' (P' := inList es) (J := fun _ => K) ?_ ?_).mono ?_
          (fun _ _ h => h)
        · intro a w3 t3 hw3
          cases a with
          | some b => exact Does.pure _ hw3
          | none => exact Does.loopIter hp hK hc hb g it' es t3 w3 hw3 hd.2 h4
        · rintro r c ⟨rfl, rfl⟩ ⟨e', he', h⟩
          exact hd.1 e' he' ⟨h.1.symm, h.2.symm⟩
        · rintro r c (⟨rfl, rfl⟩ | ⟨e', he', h⟩)
          · exact ⟨e, List.mem_cons_self, rfl, rfl⟩
          · exact ⟨e', List.mem_cons_of_mem _ he', h⟩

end GB.Prog

namespace GB.Prog

set_option linter.unusedSectionVars false

variable {T : Type} [GoNum T] [GoStore T] {q : Ref} {μ : Nat → Mat T}
variable {α β : Type} {P P' : Nat → Nat → Prop} {I I' : α → World T → Prop} {J : β → World T → Prop} {t : Nat} {w : World T}

/-- Everything but the output is as it was. -/
def Frame (w0 : World T) (out : Ref) (w : World T) : Prop := ∀ p, p ≠ out → w.heap p = w0.heap p

/-- A loop over the elements of an object that is not the output. -/
theorem Does.forEach {w0 : World T} {p out : Ref} (hp : p ≠ q) (hpo : p ≠ out) (hw : Frame w0 out w)
    (hm : (w0.heap p).WF) {oc : Option β} {body : Nat → Nat → T → Prog T (Option β)} (g : Nat)
    (hb : ∀ r c v t w, Frame w0 out w →
      Does q μ (fun i j => i = r ∧ j = c) (fun _ => Frame w0 out) (body r c v) t w) :
    Does q μ (fun _ _ => True) (fun _ => Frame w0 out) (Prog.forEach g p oc body) t w := by
  obtain ⟨es, h1, h2, -⟩ := Mat.entries_ok hm
  refine Does.seq (Does.ofObj (J := fun it w' => Frame w0 out w' ∧ it = (w0.heap p).iter) hp
    (fun b hs => ⟨hw, by rw [hw p hpo] at hs; cases hs; rfl⟩)) (fun it w2 t2 h => ?_)
  obtain ⟨hw2, rfl⟩ := h
  exact (Does.loopIter hp (fun w h => h p hpo) (fun w c h => h) hb g _ es t2 w2 hw2 h2.distinct h1.yields).mono
    (fun _ _ _ => trivial) (fun _ _ h => h)

/-- A `Map` loop that puts storable values. -/
theorem Does.loopMap {p : Ref} (hp : p ≠ q) {oc : Bool} {f : Nat → Nat → T → Prog T T} {k : Kind}
    (hf : ∀ r c v t w (m : Mat T), w.heap p = m → Mat.Storable k v →
      Does q μ (fun i j => i = r ∧ j = c) (fun v' w' => w'.heap p = m ∧ Mat.Storable k v') (f r c v) t w) :
    ∀ (g : Nat) (it : Mat.Iter) (es : List (Nat × Nat × T)) (t : Nat) (w : World T), (w.heap p).kind = k →
      es.Pairwise (fun a b => ¬ (a.1 = b.1 ∧ a.2.1 = b.2.1)) → (w.heap p).MapAt it es →
      (∀ e ∈ es, Mat.Storable k e.2.2) →
      Does q μ (inList es) (fun _ _ => True) (Prog.loopMap p oc f g it) t w
  | 0, it, es, t, w, hk, hd, hy, hz => by
    unfold Prog.loopMap
    exact Does.ite (fun _ => Does.hang) (fun _ => Does.pure _ trivial)
  | g + 1, it, es, t, w, hk, hd, hy, hz => by
    unfold Prog.loopMap
    refine Does.ite (fun hn => ?_) (fun _ => Does.pure _ trivial)
    refine Does.seq (Does.poll (I := fun _ w' => w'.heap = w.heap) (fun _ _ => rfl)) (fun stop w1 t1 hw1 => ?_)
    rw [← hw1] at hk hy
    refine Does.ite (fun _ => ?_) (fun _ => ?_)
    · refine Does.ite (fun _ => Does.pure _ trivial) (fun _ => ?_)
      exact Does.loopMap hp hf g it es t1 w1 hk hd hy hz
    · refine Does.seq (Does.ofObj (J := fun s w' => w'.heap p = w1.heap p ∧ (w1.heap p).step it = .ok s) hp
        (fun b hs => ⟨rfl, hs⟩)) (fun s w2 t2 h2 => ?_)
      obtain ⟨hw2, hs⟩ := h2
      cases es with
      | nil => exact absurd hy.nil (by simp [hn])
      | cons e es =>
        obtain ⟨-, it', h3, h4, -, -, -, h5⟩ := hy.cons
        rw [h3] at hs
        cases hs
        rw [List.pairwise_cons] at hd
        refine ((hf e.1 e.2.1 e.2.2 t2 w2 (w1.heap p) hw2 (hz e List.mem_cons_self)).bind' (P' := inList es)
          (J := fun _ _ => True) ?_ ?_).mono ?_ (fun _ _ h => h)
        · rintro v' w3 t3 ⟨hw3, hv'⟩
          obtain ⟨m', k1, k2, k3⟩ := h5 v' (hk ▸ hv')
          refine Does.seq (Does.call (J := fun _ w' => w'.heap p = m') hp (fun b m hm => ?_)) (fun _ w4 t4 hw4 => ?_)
          · rw [hw3, k1] at hm
            cases hm
            exact Function.update_self _ _ _
          · refine Does.loopMap hp hf g it' es t4 w4 ?_ hd.2 (hw4 ▸ k2) (fun e he => hz e (List.mem_cons_of_mem _ he))
            rw [hw4, ← hk]
            exact k3.same.1
        · rintro r c ⟨rfl, rfl⟩ ⟨e', he', h⟩
          exact hd.1 e' he' ⟨h.1.symm, h.2.symm⟩
        · rintro r c (⟨rfl, rfl⟩ | ⟨e', he', h⟩)
          · exact ⟨e, List.mem_cons_self, rfl, rfl⟩
          · exact ⟨e', List.mem_cons_of_mem _ he', h⟩

end GB.Prog

namespace GB.Prog

set_option linter.unusedSectionVars false

variable {T : Type} [GoNum T] [GoStore T] {q : Ref} {μ : Nat → Mat T}
variable {α β : Type} {P : Nat → Nat → Prop} {K : World T → Prop} {t : Nat} {w : World T}

/-- Nothing is known, nothing need be known. -/
abbrev Any {α : Type} : α → World T → Prop := fun _ _ => True

theorem Does.rowsOf {p : Ref} (hp : p ≠ q) (h : K w) : Does q μ P (fun _ => K) (Prog.rowsOf p : Prog T Nat) t w :=
  Does.ofObj hp (fun _ _ => h)

theorem Does.colsOf {p : Ref} (hp : p ≠ q) (h : K w) : Does q μ P (fun _ => K) (Prog.colsOf p : Prog T Nat) t w :=
  Does.ofObj hp (fun _ _ => h)

theorem Does.guard {b : Prop} [Decidable b] {k : Unit → Prog T α} {J : α → World T → Prop}
    (hk : ¬ b → Does q μ P J (k ()) t w) : Does q μ P J (if b then Prog.fail >>= k else k ()) t w :=
  Does.ite (fun _ => Does.fail) hk

section masks
variable (hμ : ∀ t, (μ t).rows = (μ 0).rows ∧ (μ t).cols = (μ 0).cols)
include hμ

theorem Does.check {out : Ref} (ho : out ≠ q) (h : K w) :
    Does q μ Nowhere (fun _ => K) (Prog.check (.ref q) out : Prog T Unit) t w := by
  unfold Prog.check
  refine Does.seq (Does.maskRows hμ (I := fun _ => K) (fun _ => h)) (fun _ w t h => ?_)
  refine Does.seq (Does.rowsOf ho h) (fun _ w t h => ?_)
  refine Does.guard (fun _ => ?_)
  refine Does.seq (Does.maskCols hμ (I := fun _ => K) (fun _ => h)) (fun _ w t h => ?_)
  refine Does.seq (Does.colsOf ho h) (fun _ w t h => ?_)
  exact Does.ite (fun _ => Does.fail) (fun _ => Does.pure _ h)

/-- The checks of the mask at the head of every operator. -/
theorem Does.pre {out : Ref} (ho : out ≠ q) (h : K w) {f : Mask → Prog T α} {J : α → World T → Prop}
    (hf : ∀ w t, K w → Does q μ P J (f (.ref q)) t w) :
    Does q μ P J (Prog.orEmpty (.ref q) out >>= fun mk => Prog.check mk out >>= fun _ => f mk) t w := by
  refine Does.seq (Does.pure (I := fun mk w' => K w' ∧ mk = .ref q) _ ⟨h, rfl⟩) (fun mk w t h => ?_)
  obtain ⟨h, rfl⟩ := h
  exact Does.seq (Does.check hμ ho h) (fun _ w t h => hf w t h)

end masks

theorem Does.dot (rows column : Vec T) : ∀ (n l : Nat) (s : T) (t : Nat) (w : World T),
    Does q μ Nowhere Any (Prog.dot rows column n l s) t w
  | 0, l, s, t, w => Does.pure _ trivial
  | n + 1, l, s, t, w => by
    unfold Prog.dot
    refine Does.seq (Does.poll (I := Any) (fun _ _ => trivial)) (fun _ w t _ => ?_)
    refine Does.ite (fun _ => Does.pure _ trivial) (fun _ => ?_)
    refine Does.seq (Does.lift (I := Any) _ (fun _ _ => trivial)) (fun _ w t _ => ?_)
    refine Does.seq (Does.lift (I := Any) _ (fun _ _ => trivial)) (fun _ w t _ => ?_)
    exact Does.dot rows column n (l + 1) _ t w

/-- Ask, then write or not. -/
theorem Does.ask {r c : Nat} {x : Prog T Unit} {k : Unit → Prog T β} (h : K w)
    (hx : ∀ t w, K w → Does q μ Nowhere (fun _ => K) x t w) (hk : ∀ t w, K w → Does q μ Nowhere (fun _ => K) (k ()) t w) :
    Does q μ (fun i j => i = r ∧ j = c) (fun _ => K)
      (Prog.element (.ref q) r c >>= fun e => if (!e) = true then x >>= k else k ()) t w := by
  refine Does.seq' (Does.element (I := fun _ => K) r c (fun _ => h)) (fun e w t h => ?_)
  exact Does.ite (fun _ => Does.seq (hx t w h) (fun _ w t h => hk t w h)) (fun _ => hk t w h)

/-- Ask, then write or not, at the end. -/
theorem Does.ask' {r c : Nat} {x : Prog T Unit} (h : K w) (hx : ∀ t w, K w → Does q μ Nowhere (fun _ => K) x t w) :
    Does q μ (fun i j => i = r ∧ j = c) (fun _ => K)
      (Prog.element (.ref q) r c >>= fun e => if (!e) = true then x else Pure.pure ()) t w := by
  refine Does.seq' (Does.element (I := fun _ => K) r c (fun _ => h)) (fun e w t h => ?_)
  exact Does.ite (fun _ => hx t w h) (fun _ => Does.pure _ h)

/-- `At` leaves the object as it is. -/
theorem Does.at' {w0 : World T} {out s : Ref} (hs : s ≠ q) (hso : s ≠ out) (hi : (w0.heap s).Inv) (h : Frame w0 out w)
    (r c : Nat) : Does q μ P (fun _ => Frame w0 out) (Prog.at' s r c : Prog T T) t w := by
  refine Does.call hs (fun b m hm => ?_)
  rw [h s hso] at hm
  rw [(hi.reads_preserve r c).1 _ _ hm, ← h s hso, Function.update_eq_self]
  exact h

theorem Does.write {w0 : World T} {out : Ref} {f : Mat T → Out (β × Mat T)} (ho : out ≠ q) (h : Frame w0 out w) :
    Does q μ P (fun _ => Frame w0 out) (Prog.withObj out f : Prog T β) t w :=
  Does.call ho (fun b m _ p hp => by simp [Function.update_of_ne hp, h p hp])

theorem Does.isSparse {w0 : World T} {out p : Ref} (hp : p ≠ q) (h : Frame w0 out w) :
    Does q μ P (fun _ => Frame w0 out) (Prog.isSparse p : Prog T Bool) t w := by
  refine Does.seq (Does.ofObj (J := fun _ => Frame w0 out) hp (fun _ _ => h)) (fun n w t h => ?_)
  refine ⟨[], by simp, by simp, Nat.le_succ t, fun m _ _ _ => rfl, fun a w' e => ?_⟩
  cases e
  exact h

section operators
variable (hμ : ∀ t, (μ t).rows = (μ 0).rows ∧ (μ t).cols = (μ 0).cols)
include hμ

theorem Does.multiply {s m out : Ref} (hs : s ≠ q) (hm : m ≠ q) (ho : out ≠ q) :
    Does q μ (fun _ _ => True) Any (Prog.multiply s m (.ref q) out) t w := by
  unfold Prog.multiply
  refine Does.seq (Does.rowsOf (K := fun _ => True) hm trivial) (fun _ w t h => ?_)
  refine Does.seq (Does.colsOf (K := fun _ => True) hs trivial) (fun _ w t h => ?_)
  refine Does.guard (fun _ => ?_)
  refine Does.pre hμ (K := fun _ => True) ho trivial (fun w t _ => ?_)
  refine Does.seq (Does.rowsOf (K := fun _ => True) hs trivial) (fun sr w t h => ?_)
  refine Does.seq' (I := Any) ((Does.forN (K := fun _ => True) (Q := fun i r _ => r = i) ?_ sr 0 t w trivial ?_).mono
    (fun _ _ _ => trivial) (fun _ _ h => h)) (fun _ w t _ => Does.pure _ trivial)
  · intro i i' r c hne h1 h2
    exact hne (h1.symm.trans h2)
  · intro r t w _ _ _
    refine Does.seq (Does.ofObj (J := Any) hs (fun _ _ => trivial)) (fun rows w t h => ?_)
    refine Does.seq (Does.colsOf (K := fun _ => True) hm trivial) (fun mc w t h => ?_)
    refine (Does.forN (K := fun _ => True) (Q := fun j i c => i = r ∧ c = j) ?_ mc 0 t w trivial ?_).mono ?_
      (fun _ _ h => h)
    · intro i i' r c hne h1 h2
      exact hne (h1.2.symm.trans h2.2)
    · intro c t w _ _ _
      refine Does.seq (Does.ofObj (J := Any) hm (fun _ _ => trivial)) (fun column w t h => ?_)
      refine Does.seq (Does.dot _ _ _ _ _ t w) (fun o w t h => ?_)
      cases o with
      | none => exact Does.pure _ trivial
      | some sum =>
        exact Does.ask (K := fun _ => True) trivial (fun t w _ => Does.call ho (fun _ _ _ => trivial))
          (fun t w _ => Does.pure _ trivial)
    · rintro i j ⟨_, _, _, h, _⟩
      exact h

theorem Does.add {s m out : Ref} (g : Nat) (hs : s ≠ q) (hm : m ≠ q) (ho : out ≠ q) (hso : s ≠ out) (hmo : m ≠ out)
    (h1 : (w.heap s).WF) (h2 : (w.heap m).WF) :
    Does q μ (fun _ _ => True) Any (Prog.add g s m (.ref q) out) t w := by
  obtain ⟨w0, hw0⟩ : ∃ w0, w0 = w := ⟨w, rfl⟩
  have hF : Frame w0 out w := fun p _ => by rw [hw0]
  rw [← hw0] at h1 h2
  clear hw0
  unfold Prog.add
  refine Does.seq (Does.colsOf hs hF) (fun _ w t h => ?_)
  refine Does.seq (Does.colsOf hm h) (fun _ w t h => ?_)
  refine Does.guard (fun _ => ?_)
  refine Does.seq (Does.rowsOf hs h) (fun _ w t h => ?_)
  refine Does.seq (Does.rowsOf hm h) (fun _ w t h => ?_)
  refine Does.guard (fun _ => ?_)
  refine Does.pre hμ ho h (fun w t h => ?_)
  refine Does.seq (Does.isSparse hs h) (fun sp w t h => ?_)
  have key : ∀ (over source : Ref), over ≠ q → over ≠ out → source ≠ q → source ≠ out → (w0.heap over).WF →
      (w0.heap source).Inv → Does q μ (fun _ _ => True) (fun _ => Frame w0 out) (Prog.forEach g over (some ()) (fun r c v => do
        let value ← Prog.at' source r c
        let e ← Prog.element (.ref q) r c
        if !e then Prog.set out r c (value + v)
        Pure.pure none)) t w := by
    intro over source k1 k2 k3 k4 k5 k6
    refine Does.forEach k1 k2 h k5 g (fun r c v t w h => ?_)
    refine Does.seq (Does.at' k3 k4 k6 h r c) (fun value w t h => ?_)
    exact Does.ask h (fun t w h => Does.write ho h) (fun t w h => Does.pure _ h)
  cases sp with
  | true => exact Does.seq' (key s m hs hso hm hmo h1 h2.inv) (fun _ w t h => Does.pure _ trivial)
  | false => exact Does.seq' (key m s hm hmo hs hso h2 h1.inv) (fun _ w t h => Does.pure _ trivial)

theorem Does.subtract {s m out : Ref} (g : Nat) (hs : s ≠ q) (hm : m ≠ q) (ho : out ≠ q) (hso : s ≠ out)
    (h1 : (w.heap s).WF) : Does q μ (fun _ _ => True) Any (Prog.subtract g s m (.ref q) out) t w := by
  obtain ⟨w0, hw0⟩ : ∃ w0, w0 = w := ⟨w, rfl⟩
  have hF : Frame w0 out w := fun p _ => by rw [hw0]
  rw [← hw0] at h1
  clear hw0
  unfold Prog.subtract
  refine Does.seq (Does.colsOf hs hF) (fun _ w t h => ?_)
  refine Does.seq (Does.colsOf hm h) (fun _ w t h => ?_)
  refine Does.guard (fun _ => ?_)
  refine Does.seq (Does.rowsOf hs h) (fun _ w t h => ?_)
  refine Does.seq (Does.rowsOf hm h) (fun _ w t h => ?_)
  refine Does.guard (fun _ => ?_)
  refine Does.pre hμ ho h (fun w t h => ?_)
  refine Does.seq' (I := Any) ((Does.forEach hs hso h h1 g (fun r c v t w h => ?_)).mono (fun _ _ h => h) (fun _ _ _ => trivial))
    (fun _ w t h => Does.pure _ trivial)
  exact Does.ask h (fun t w h => Does.write ho h) (fun t w h => Does.pure _ h)

theorem Does.transpose {s out : Ref} (g : Nat) (hs : s ≠ q) (ho : out ≠ q) (hso : s ≠ out)
    (h1 : (w.heap s).WF) : Does q μ (fun _ _ => True) Any (Prog.transpose g s (.ref q) out) t w := by
  obtain ⟨w0, hw0⟩ : ∃ w0, w0 = w := ⟨w, rfl⟩
  have hF : Frame w0 out w := fun p _ => by rw [hw0]
  rw [← hw0] at h1
  clear hw0
  unfold Prog.transpose
  refine Does.pre hμ ho hF (fun w t h => ?_)
  refine Does.seq' (I := Any) ((Does.forEach hs hso h h1 g (fun r c v t w h => ?_)).mono (fun _ _ h => h) (fun _ _ _ => trivial))
    (fun _ w t h => Does.pure _ trivial)
  exact Does.ask h (fun t w h => Does.write ho h) (fun t w h => Does.pure _ h)

/-- The part common to the two element-wise loops that use one operand only. -/
theorem Does.eAddLoop {w0 : World T} {s out : Ref} (g : Nat) (hs : s ≠ q) (ho : out ≠ q) (hso : s ≠ out)
    (h1 : (w0.heap s).WF) (hF : Frame w0 out w) :
    Does q μ (fun _ _ => True) (fun _ => Frame w0 out) (Prog.eAddLoop g s (.ref q) out) t w := by
  unfold Prog.eAddLoop
  refine Does.forEach hs hso hF h1 g (fun r c v t w h => ?_)
  refine Does.ite (fun _ => ?_) (fun _ => Does.pure _ h)
  exact Does.ask h (fun t w h => Does.write ho h) (fun t w h => Does.pure _ h)

theorem Does.elementWiseAdd {s m out : Ref} (g : Nat) (hs : s ≠ q) (hm : m ≠ q) (ho : out ≠ q) (hso : s = out ∨ m = out)
    (h1 : (w.heap s).WF) (h2 : (w.heap m).WF) :
    Does q μ (fun _ _ => True) Any (Prog.elementWiseAdd g s m (.ref q) out) t w := by
  obtain ⟨w0, hw0⟩ : ∃ w0, w0 = w := ⟨w, rfl⟩
  have hF : Frame w0 out w := fun p _ => by rw [hw0]
  rw [← hw0] at h1 h2
  clear hw0
  unfold Prog.elementWiseAdd
  refine Does.pre hμ ho hF (fun w t h => ?_)
  by_cases e : s = out
  · simp only [e, ne_eq, not_true, if_false]
    refine Does.seq (Does.pure (I := fun a w' => Frame w0 out w' ∧ a = none) _ ⟨h, rfl⟩) (fun a w t h => ?_)
    obtain ⟨h, rfl⟩ := h
    refine Does.ite (fun hmo => ?_) (fun _ => Does.pure _ trivial)
    exact Does.seq' (Does.eAddLoop hμ g hm ho hmo h2 h) (fun _ w t h => Does.pure _ trivial)
  · have e' := hso.resolve_left e
    simp only [e', e, ne_eq, not_true, not_false_iff, if_false, if_true]
    refine Does.seq' (Does.eAddLoop hμ g hs ho e h1 h) (fun a w t h => ?_)
    cases a <;> exact Does.pure _ trivial

theorem Does.elementWiseMultiply {s m out : Ref} (g : Nat) (hs : s ≠ q) (hm : m ≠ q) (ho : out ≠ q)
    (hso : ¬ (s = out ∧ m = out)) (h1 : (w.heap s).WF) (h2 : (w.heap m).WF) :
    Does q μ (fun _ _ => True) Any (Prog.elementWiseMultiply g s m (.ref q) out) t w := by
  obtain ⟨w0, hw0⟩ : ∃ w0, w0 = w := ⟨w, rfl⟩
  have hF : Frame w0 out w := fun p _ => by rw [hw0]
  rw [← hw0] at h1 h2
  clear hw0
  unfold Prog.elementWiseMultiply
  refine Does.pre hμ ho hF (fun w t h => ?_)
  have run : ∀ (over : Ref) (target : Nat → Nat → T → Prog T Unit) (w : World T) (t : Nat), Frame w0 out w → over ≠ q →
      over ≠ out → (w0.heap over).WF →
      (∀ r c v t w, Frame w0 out w →
        Does q μ (fun i j => i = r ∧ j = c) (fun _ => Frame w0 out) (target r c v) t w) →
      Does q μ (fun _ _ => True) Any (do
        let _ ← Prog.forEach g over (some ()) (fun r c v => do target r c v; Pure.pure none)
        Pure.pure ()) t w := by
    intro over target w t h k1 k2 k3 k4
    refine Does.seq' (I := Any) ((Does.forEach k1 k2 h k3 g (fun r c v t w h => ?_)).mono (fun _ _ h => h)
      (fun _ _ _ => trivial)) (fun _ w t h => Does.pure _ trivial)
    exact Does.seq' (k4 r c v t w h) (fun _ w t h => Does.pure _ h)
  have src : ∀ r c v t w, Frame w0 out w →
        Does q μ (fun i j => i = r ∧ j = c) (fun _ => Frame w0 out) (Prog.eMulSetSource out (.ref q) r c v) t w :=
    fun r c v t w h => Does.ask' h (fun t w h => Does.write ho h)
  have tgt : ∀ source, source ≠ q → source ≠ out → (w0.heap source).Inv → ∀ r c v t w, Frame w0 out w →
        Does q μ (fun i j => i = r ∧ j = c) (fun _ => Frame w0 out) (Prog.eMulTarget source out (.ref q) r c v) t w := by
    intro source k1 k2 k3 r c v t w h
    refine Does.seq (Does.at' k1 k2 k3 h r c) (fun x w t h => ?_)
    exact Does.ite (fun _ => Does.ask' h (fun t w h => Does.write ho h)) (fun _ => Does.pure _ h)
  refine Does.ite (fun e => ?_) (fun e => Does.ite (fun e' => ?_) (fun e' => ?_))
  · rw [e]
    exact run s _ w t h hs (fun e' => hso ⟨e', e⟩) h1 src
  · rw [e']
    exact run m _ w t h hm e h2 src
  · refine Does.seq (Does.isSparse hs h) (fun sp w t h => Does.ite (fun _ => ?_) (fun _ => ?_))
    · exact run s _ w t h hs e' h1 (tgt m hm e h2.inv)
    · exact run m _ w t h hm e h2 (tgt s hs e' h1.inv)

/-- A `Map` loop over the output. -/
theorem Does.forMap {out : Ref} (ho : out ≠ q) (h1 : (w.heap out).WF) {f : Nat → Nat → T → Prog T T} (g : Nat)
    (hf : ∀ r c v t w' (m : Mat T), w'.heap out = m → Mat.Storable (w.heap out).kind v →
      Does q μ (fun i j => i = r ∧ j = c) (fun v' w' => w'.heap out = m ∧ Mat.Storable (w.heap out).kind v') (f r c v) t w') :
    Does q μ (fun _ _ => True) Any (Prog.forMap g out true f) t w := by
  obtain ⟨es, k1, k2, -, -, k3⟩ := Mat.entries_ok h1
  refine Does.seq (Does.ofObj (J := fun it w' => w'.heap out = w.heap out ∧ it = (w.heap out).iter) ho
    (fun b hs => ⟨rfl, by cases hs; rfl⟩)) (fun it w2 t2 h => ?_)
  obtain ⟨hw2, rfl⟩ := h
  refine (Does.loopMap (k := (w.heap out).kind) ho hf g _ es t2 w2 (by rw [hw2]) k2.distinct (by rw [hw2]; exact k1) ?_).mono
    (fun _ _ _ => trivial) (fun _ _ h => h)
  intro e he
  unfold Mat.Storable
  split
  · trivial
  · trivial
  · exact k3 ⟨‹_›, ‹_›⟩ e he

theorem Does.negative {out : Ref} (g : Nat) (ho : out ≠ q) (h1 : (w.heap out).WF)
    (hn : ∀ v : T, Mat.Storable (w.heap out).kind v → Mat.Storable (w.heap out).kind (-v)) :
    Does q μ (fun _ _ => True) Any (Prog.negative g (.ref q) out) t w := by
  unfold Prog.negative
  refine Does.pre hμ (K := fun w' => w'.heap out = w.heap out) ho rfl (fun w' t h => ?_)
  refine Does.seq' (Does.forMap hμ ho (h ▸ h1) g (fun r c v t w1 m hm hv => ?_)) (fun _ w t h => Does.pure _ trivial)
  refine Does.seq' (Does.element (I := fun _ w' => w'.heap out = m) r c (fun _ => hm)) (fun e w t hm => ?_)
  rw [h] at hv ⊢
  exact Does.ite (fun _ => Does.pure _ ⟨hm, hn v hv⟩) (fun _ => Does.pure _ ⟨hm, hv⟩)

theorem Does.apply {s out : Ref} (g : Nat) (u : T → T) (hs : s ≠ q) (ho : out ≠ q)
    (h1 : (w.heap s).WF)
    (hn : s = out → ∀ v : T, Mat.Storable (w.heap out).kind v → Mat.Storable (w.heap out).kind (u v)) :
    Does q μ (fun _ _ => True) Any (Prog.apply g s (.ref q) u out) t w := by
  obtain ⟨w0, hw0⟩ : ∃ w0, w0 = w := ⟨w, rfl⟩
  unfold Prog.apply
  by_cases e : s = out
  · subst e
    refine Does.pre hμ (K := fun w' => w'.heap s = w.heap s) ho rfl (fun w' t h => ?_)
    simp only [if_true]
    refine Does.seq' (Does.forMap hμ ho (h ▸ h1) g (fun r c v t w1 m hm hv => ?_)) (fun _ w t h => Does.pure _ trivial)
    refine Does.seq' (Does.element (I := fun _ w' => w'.heap s = m) r c (fun _ => hm)) (fun e w t hm => ?_)
    rw [h] at hv ⊢
    exact Does.ite (fun _ => Does.pure _ ⟨hm, hn rfl v hv⟩) (fun _ => Does.pure _ ⟨hm, hv⟩)
  · have hF : Frame w0 out w := fun p _ => by rw [hw0]
    rw [← hw0] at h1
    clear hw0
    refine Does.pre hμ ho hF (fun w t h => ?_)
    simp only [e, if_false]
    refine Does.seq' (I := Any) ((Does.forEach hs e h h1 g (fun r c v t w h => ?_)).mono (fun _ _ h => h) (fun _ _ _ => trivial))
      (fun _ w t h => Does.pure _ trivial)
    exact Does.ask h (fun t w h => Does.write ho h) (fun t w h => Does.pure _ h)

end operators

end GB.Prog
