import Verif.Lemmas.Look

/-!
# At most one cell is written between two looks at the context
-/

namespace GB

set_option linter.unusedSectionVars false

variable {T : Type} [GoNum T]

theorem CellsOnly.refl (out : Ref) (w : World T) : CellsOnly out [] w w :=
  ⟨fun _ _ => rfl, Mat.Same.refl _, fun _ _ _ _ _ => rfl⟩

theorem CellsOnly.of_heap {out : Ref} {w w' : World T} (h : w'.heap = w.heap) : CellsOnly out [] w w' := by
  refine ⟨fun q _ => by rw [h], by rw [h]; exact Mat.Same.refl _, fun _ _ _ _ _ => by rw [h]⟩

theorem CellsOnly.trans {out : Ref} {a b c : World T} {ps qs : List (Nat × Nat)} (h : CellsOnly out ps a b)
    (h' : CellsOnly out qs b c) : CellsOnly out (ps ++ qs) a c := by
  refine ⟨fun q hq => (h'.1 q hq).trans (h.1 q hq), h'.2.1.trans h.2.1, fun i j hi hj hn => ?_⟩
  rw [List.mem_append, not_or] at hn
  rw [h'.2.2 i j (by rw [h.2.1.2.1]; exact hi) (by rw [h.2.1.2.2]; exact hj) hn.2, h.2.2 i j hi hj hn.1]

namespace Prog

/-- From the states in `I`: every method call leads to a state in `I`, and between two looks at most one of them changes
anything, namely one cell of `out`. The argument `b` says whether a cell may still be written before the next look
(`some`), or that there is no further look (`none`). `P` holds of the result. -/
def Calm (I : World T → Prop) (out : Ref) {α : Type} (P : α → Option Bool → Prop) : Prog T α → Option Bool → Prop
  | ret a, b => P a b
  | fail, _ => True
  | hang, _ => True
  | poll k, b => b ≠ none ∧ Calm I out P (k false) (some true)
  | names k, b => ∀ r, Calm I out P (k r) b
  | call p f k, b => ∀ w β w', I w → M.withObj p f w = .ok β w' → I w' ∧
      ((w'.heap = w.heap ∧ Calm I out P (k β) b) ∨
        (b ≠ some false ∧ (∃ r c, CellsOnly out [(r, c)] w w') ∧ Calm I out P (k β) (b.map fun _ => false)))

namespace Calm

variable {I : World T → Prop} {out : Ref}

/-- What changed up to a look. -/
theorem upTo {α : Type} {P : α → Option Bool → Prop} {x : Prog T α} {b : Option Bool} (h : Calm I out P x b)
    {w w' : World T} {k : Nat} (hI : I w) (e : x.atLook k w = some w') :
    ∃ ps, ps.length ≤ k + (if b = some true then 1 else 0) ∧ CellsOnly out ps w w' ∧ b ≠ none := by
  induction x generalizing b k w with
  | ret a => cases e
  | fail => cases e
  | hang => cases e
  | poll f ih =>
    cases k with
    | zero => cases e; exact ⟨[], Nat.zero_le _, .refl _ _, h.1⟩
    | succ k =>
      obtain ⟨ps, h1, h2, -⟩ := ih false h.2 hI e
      refine ⟨ps, ?_, h2, h.1⟩
      simp only [if_true] at h1
      omega
  | names f ih => exact ih w.reg (h _) hI e
  | call p f g ih =>
    simp only [atLook] at e
    cases hp : M.withObj p f w with
    | ok β w1 =>
      rw [hp] at e
      obtain ⟨h1, ⟨h2, h3⟩ | ⟨h2, ⟨r, c, h3⟩, h4⟩⟩ := h w β w1 hI hp
      · obtain ⟨ps, k1, k2, k3⟩ := ih β h3 h1 e
        exact ⟨ps, k1, (CellsOnly.of_heap h2).trans k2, k3⟩
      · obtain ⟨ps, k1, k2, k3⟩ := ih β h4 h1 e
        refine ⟨[(r, c)] ++ ps, ?_, h3.trans k2, by rintro rfl; exact k3 rfl⟩
        rcases b with _ | _ | _
        · exact absurd rfl k3
        · exact absurd rfl h2
        · simp at k1 ⊢; omega
    | panic w1 => rw [hp] at e; cases e
    | hang w1 => rw [hp] at e; cases e

/-- What changed between two looks. -/
theorem between {α : Type} {P : α → Option Bool → Prop} {x : Prog T α} {b : Option Bool} (h : Calm I out P x b)
    {w w1 w2 : World T} {k d : Nat} (hI : I w) (e1 : x.atLook k w = some w1) (e2 : x.atLook (k + d) w = some w2) :
    ∃ ps, ps.length ≤ d ∧ CellsOnly out ps w1 w2 := by
  induction x generalizing b k w with
  | ret a => cases e1
  | fail => cases e1
  | hang => cases e1
  | poll f ih =>
    cases k with
    | zero =>
      cases e1
      cases d with
      | zero => cases e2; exact ⟨[], Nat.le_refl _, .refl _ _⟩
      | succ d =>
        rw [Nat.zero_add] at e2
        obtain ⟨ps, h1, h2, -⟩ := h.2.upTo hI (k := d) e2
        exact ⟨ps, by simpa using h1, h2⟩
    | succ k =>
      rw [Nat.succ_add] at e2
      exact ih false h.2 hI e1 e2
  | names f ih => exact ih w.reg (h _) hI e1 e2
  | call p f g ih =>
    simp only [atLook] at e1 e2
    cases hp : M.withObj p f w with
    | ok β w' =>
      rw [hp] at e1 e2
      obtain ⟨h1, ⟨h2, h3⟩ | ⟨h2, -, h4⟩⟩ := h w β w' hI hp
      · exact ih β h3 h1 e1 e2
      · exact ih β h4 h1 e1 e2
    | panic w' => rw [hp] at e1; cases e1
    | hang w' => rw [hp] at e1; cases e1

theorem withObj_none {p : Ref} {β : Type} {f : Mat T → Out (β × Mat T)} {w w' : World T} {b : β} (h : w.cancel = none)
    (e : M.withObj p f w = .ok b w') : w'.cancel = none := by
  unfold M.withObj at e
  split at e
  · cases e; exact h
  · cases e
  · cases e

/-- What changed when the program has returned. -/
theorem upEnd {α : Type} {P : α → Option Bool → Prop} {x : Prog T α} {b : Option Bool} (h : Calm I out P x b)
    (hb : b ≠ none) {w w' : World T} {a : α} (hI : I w) (hc : w.cancel = none) (e : x.run w = .ok a w') :
    ∃ ps, ps.length ≤ x.looks w + (if b = some true then 1 else 0) ∧ CellsOnly out ps w w' := by
  induction x generalizing b w with
  | ret a => cases e; exact ⟨[], Nat.zero_le _, .refl _ _⟩
  | fail => cases e
  | hang => cases e
  | poll f ih =>
    have e0 : M.poll w = .ok false w := by unfold M.poll; rw [hc]
    have e1 : (M.poll >>= fun b => Prog.run (f b)) w = .ok a w' := e
    simp only [Bind.bind, M.bind', e0] at e1
    obtain ⟨ps, h1, h2⟩ := ih false h.2 (by simp) hI hc e1
    refine ⟨ps, ?_, h2⟩
    simp only [if_true] at h1
    show _ ≤ (f false).looks w + 1 + _
    omega
  | names f ih => exact ih w.reg (h _) hb hI hc e
  | call p f g ih =>
    have e1 : (M.withObj p f >>= fun b => Prog.run (g b)) w = .ok a w' := e
    simp only [Bind.bind, M.bind'] at e1
    simp only [looks]
    cases hp : M.withObj p f w with
    | ok β w1 =>
      rw [hp] at e1
      have hc1 := withObj_none hc hp
      obtain ⟨h1, ⟨h2, h3⟩ | ⟨h2, ⟨r, c, h3⟩, h4⟩⟩ := h w β w1 hI hp
      · obtain ⟨ps, k1, k2⟩ := ih β h3 hb h1 hc1 e1
        exact ⟨ps, k1, (CellsOnly.of_heap h2).trans k2⟩
      · obtain ⟨ps, k1, k2⟩ := ih β h4 (by cases b <;> simp at hb ⊢) h1 hc1 e1
        refine ⟨[(r, c)] ++ ps, ?_, h3.trans k2⟩
        rcases b with _ | _ | _
        · exact absurd rfl hb
        · exact absurd rfl h2
        · simp at k1 ⊢; omega
    | panic w1 => rw [hp] at e1; cases e1
    | hang w1 => rw [hp] at e1; cases e1

/-- What changed between a look and the end. -/
theorem toEnd {α : Type} {P : α → Option Bool → Prop} {x : Prog T α} {b : Option Bool} (h : Calm I out P x b)
    {w w1 w2 : World T} {k : Nat} {a : α} (hI : I w) (hc : w.cancel = none) (e1 : x.atLook k w = some w1)
    (e2 : x.run w = .ok a w2) : ∃ ps, ps.length + k ≤ x.looks w ∧ CellsOnly out ps w1 w2 := by
  induction x generalizing b k w with
  | ret a => cases e1
  | fail => cases e1
  | hang => cases e1
  | poll f ih =>
    have e0 : M.poll w = .ok false w := by unfold M.poll; rw [hc]
    have e3 : (M.poll >>= fun b => Prog.run (f b)) w = .ok a w2 := e2
    simp only [Bind.bind, M.bind', e0] at e3
    cases k with
    | zero =>
      cases e1
      obtain ⟨ps, h1, h2⟩ := h.2.upEnd (by simp) hI hc e3
      exact ⟨ps, by simpa [looks] using h1, h2⟩
    | succ k =>
      obtain ⟨ps, h1, h2⟩ := ih false h.2 hI hc e1 e3
      refine ⟨ps, ?_, h2⟩
      show _ ≤ (f false).looks w + 1
      omega
  | names f ih => exact ih w.reg (h _) hI hc e1 e2
  | call p f g ih =>
    have e3 : (M.withObj p f >>= fun b => Prog.run (g b)) w = .ok a w2 := e2
    simp only [Bind.bind, M.bind'] at e3
    simp only [atLook] at e1
    simp only [looks]
    cases hp : M.withObj p f w with
    | ok β w' =>
      rw [hp] at e1 e3
      have hc1 := withObj_none hc hp
      obtain ⟨h1, ⟨h2, h3⟩ | ⟨h2, -, h4⟩⟩ := h w β w' hI hp
      · exact ih β h3 h1 hc1 e1 e3
      · exact ih β h4 h1 hc1 e1 e3
    | panic w' => rw [hp] at e1; cases e1
    | hang w' => rw [hp] at e1; cases e1

variable {α β : Type}

theorem pure {P : α → Option Bool → Prop} {a : α} {b : Option Bool} (h : P a b) : Calm I out P (Pure.pure a : Prog T α) b := h

theorem bind {P : α → Option Bool → Prop} {Q : β → Option Bool → Prop} {x : Prog T α} {f : α → Prog T β} {b : Option Bool}
    (hx : Calm I out P x b) (hf : ∀ a b', P a b' → Calm I out Q (f a) b') : Calm I out Q (x >>= f) b := by
  rw [bind_def]
  induction x generalizing b with
  | ret a => exact hf a b hx
  | fail => trivial
  | hang => trivial
  | poll k ih => exact ⟨hx.1, ih false hx.2⟩
  | names k ih => exact fun r => ih r (hx r)
  | call p g k ih =>
    intro w r w' hw e
    obtain ⟨h1, h2⟩ := hx w r w' hw e
    exact ⟨h1, h2.imp (fun h => ⟨h.1, ih r h.2⟩) (fun h => ⟨h.1, h.2.1, ih r h.2.2⟩)⟩

theorem mono {P Q : α → Option Bool → Prop} {x : Prog T α} {b : Option Bool} (hx : Calm I out P x b)
    (h : ∀ a b, P a b → Q a b) : Calm I out Q x b := by
  induction x generalizing b with
  | ret a => exact h a b hx
  | fail => trivial
  | hang => trivial
  | poll k ih => exact ⟨hx.1, ih false hx.2⟩
  | names k ih => exact fun r => ih r (hx r)
  | call p g k ih =>
    intro w r w' hw e
    obtain ⟨h1, h2⟩ := hx w r w' hw e
    exact ⟨h1, h2.imp (fun h => ⟨h.1, ih r h.2⟩) (fun h => ⟨h.1, h.2.1, ih r h.2.2⟩)⟩

theorem ite {P : α → Option Bool → Prop} {c : Prop} [Decidable c] {x y : Prog T α} {b : Option Bool} (hx : Calm I out P x b)
    (hy : Calm I out P y b) : Calm I out P (if c then x else y) b := by split; exacts [hx, hy]

theorem guard {P : α → Option Bool → Prop} {c : Prop} [Decidable c] {k : Unit → Prog T α} {b : Option Bool}
    (h : ¬ c → Calm I out P (k ()) b) : Calm I out P (if c then Prog.fail >>= k else k ()) b := by
  split
  · trivial
  · next hc => exact h hc

theorem lift {b : Option Bool} (x : Out α) : Calm I out (fun _ b' => b' = b) (Prog.lift x : Prog T α) b := by
  cases x
  · rfl
  · trivial
  · trivial

/-- A method call that changes nothing. -/
theorem read {p : Ref} {f : Mat T → Out (α × Mat T)} {Q : α → Prop} {b : Option Bool}
    (h : ∀ w a m', I w → f (w.heap p) = .ok (a, m') → m' = w.heap p ∧ Q a) :
    Calm I out (fun a b' => b' = b ∧ Q a) (Prog.withObj p f) b := by
  intro w a w' hw e
  unfold M.withObj at e
  cases hf : f (w.heap p) with
  | ok x =>
    obtain ⟨a', m'⟩ := x
    obtain ⟨rfl, hq⟩ := h w a' m' hw hf
    rw [hf] at e
    simp only [Function.update_eq_self] at e
    cases e
    exact ⟨hw, .inl ⟨rfl, rfl, hq⟩⟩
  | panic => rw [hf] at e; cases e
  | hang => rw [hf] at e; cases e

theorem ofObj {p : Ref} {f : Mat T → Out α} {Q : α → Prop} {b : Option Bool}
    (h : ∀ w a, I w → f (w.heap p) = .ok a → Q a) : Calm I out (fun a b' => b' = b ∧ Q a) (Prog.ofObj p f) b := by
  refine read fun w a m' hw e => ?_
  cases hf : f (w.heap p) with
  | ok x => rw [hf] at e; cases e; exact ⟨rfl, h w _ hw hf⟩
  | panic => rw [hf] at e; cases e
  | hang => rw [hf] at e; cases e

theorem isSparse (p : Ref) (b : Option Bool) : Calm I out (fun _ b' => b' = b) (Prog.isSparse p : Prog T Bool) b :=
  bind (ofObj (Q := fun _ => True) fun _ _ _ _ => trivial) fun _ _ h _ => h.1

theorem loopIter {p : Ref} {oc : β} {body : Nat → Nat → T → Prog T (Option β)}
    (hb : ∀ r c v, Calm I out (fun _ b' => b' ≠ none) (body r c v) (some true)) (k : Nat) (it : Mat.Iter)
    {b : Option Bool} (hn : b ≠ none) : Calm I out (fun _ b' => b' ≠ none) (Prog.loopIter p (some oc) body k it) b := by
  induction k generalizing it b with
  | zero => unfold Prog.loopIter; exact ite trivial (pure hn)
  | succ k ih =>
    unfold Prog.loopIter
    refine ite ⟨hn, ?_⟩ (pure hn)
    show Calm I out _ (Prog.ofObj p (fun m => m.step it) >>= _) _
    refine bind (ofObj (Q := fun _ => True) fun _ _ _ _ => trivial) ?_
    rintro ⟨it', r, c, v⟩ _ ⟨rfl, -⟩
    refine bind (hb r c v) ?_
    rintro (_ | x) b' hb'
    · exact ih it' hb'
    · exact pure hb'

theorem forEach {g : Nat} {p : Ref} {oc : β} {body : Nat → Nat → T → Prog T (Option β)}
    (hb : ∀ r c v, Calm I out (fun _ b' => b' ≠ none) (body r c v) (some true)) {b : Option Bool} (hn : b ≠ none) :
    Calm I out (fun _ b' => b' ≠ none) (Prog.forEach g p (some oc) body) b :=
  bind (ofObj (Q := fun _ => True) fun _ _ _ _ => trivial) fun it _ h => loopIter hb g it (h.1 ▸ hn)

theorem forN {Q : Option Bool → Prop} {body : Nat → Prog T (Option β)} (n i0 : Nat)
    (hb : ∀ i, i0 ≤ i → i < i0 + n → ∀ b, Q b → Calm I out (fun _ b' => Q b') (body i) b) {b : Option Bool} (h : Q b) :
    Calm I out (fun _ b' => Q b') (Prog.forN n i0 body) b := by
  induction n generalizing i0 b with
  | zero => exact pure h
  | succ n ih =>
    refine bind (hb i0 (Nat.le_refl _) (by omega) b h) ?_
    rintro (_ | x) b' hb'
    · exact ih (i0 + 1) (fun i h1 h2 => hb i (by omega) (by omega)) hb'
    · exact pure hb'

theorem dot {rows column : Vec T} (n l : Nat) (s : T) {b : Option Bool} (hn : b ≠ none) :
    Calm I out (fun _ b' => b' = some true ∨ (n = 0 ∧ b' = b)) (Prog.dot rows column n l s) b := by
  induction n generalizing l s b with
  | zero => exact pure (.inr ⟨rfl, rfl⟩)
  | succ n ih =>
    refine ⟨hn, ?_⟩
    show Calm I out _ (Prog.lift (column.atVec l) >>= _) _
    refine bind (lift _) fun vC _ e => ?_
    subst e
    refine bind (lift _) fun vR _ e => ?_
    subst e
    refine mono (ih _ _ (by simp)) fun _ b' h => .inl ?_
    rcases h with h | ⟨-, h⟩ <;> exact h

end Calm

/-! ## The operators -/

namespace Calm

variable [GoStore T] {w0 : World T} {out : Ref}

/-- From `w0` only `out` has changed. -/
abbrev From (w0 : World T) (out : Ref) : World T → Prop := Scene (fun _ => True) w0 out

theorem rowsOf (p : Ref) (b : Option Bool) :
    Calm (From w0 out) out (fun n b' => b' = b ∧ n = (w0.heap p).rows) (Prog.rowsOf p) b :=
  ofObj fun w a hw e => by cases e; exact (hw.shape p).2.1

theorem colsOf (p : Ref) (b : Option Bool) :
    Calm (From w0 out) out (fun n b' => b' = b ∧ n = (w0.heap p).cols) (Prog.colsOf p) b :=
  ofObj fun w a hw e => by cases e; exact (hw.shape p).2.2

theorem at' {p : Ref} (hp : (w0.heap p).Inv) (r c : Nat) (b : Option Bool) :
    Calm (From w0 out) out (fun _ b' => b' = b) (Prog.at' p r c) b :=
  mono (read (Q := fun _ => True) fun _ _ _ hw e => ⟨((hw.invs hp).reads_preserve _ _).1 _ _ e, trivial⟩) fun _ _ h => h.1

/-- The mask is in a state a program can bring about. -/
def MaskInv (w0 : World T) (mask : Mask) : Prop := ∀ p, mask = .ref p → (w0.heap p).Inv

theorem element {mask : Mask} (hk : MaskInv w0 mask) (r c : Nat) (b : Option Bool) :
    Calm (From w0 out) out (fun _ b' => b' = b) (Prog.element mask r c) b := by
  cases mask with
  | nil => trivial
  | empty _ _ => exact rfl
  | given _ _ el =>
    cases h : el r c with
    | none => simp only [Prog.element, h]; trivial
    | some b => simp only [Prog.element, h]; exact rfl
  | ref p =>
    exact mono (read (Q := fun _ => True) fun _ _ _ hw e =>
      ⟨((hw.invs (hk p rfl)).reads_preserve _ _).2 _ _ e, trivial⟩) fun _ _ h => h.1

/-- A call of `Set` or `Update` of the output. -/
theorem write {f : Mat T → Out (Mat T)} {b : Option Bool} (hb : b ≠ some false)
    (h : ∀ w m', From w0 out w → f (w.heap out) = .ok m' → ∃ r c v, Mat.Wrote (w.heap out) m' r c v) :
    Calm (From w0 out) out (fun _ b' => b' = b.map fun _ => false)
      (Prog.withObj out (fun m => do let m' ← f m; .ok ((), m'))) b := by
  intro w a w' hw e
  unfold M.withObj at e
  dsimp only at e
  cases hf : f (w.heap out) with
  | ok m' =>
    obtain ⟨r, c, v, hm⟩ := h w m' hw hf
    rw [hf] at e
    cases e
    refine ⟨hw.put hm.wf.inv hm.same trivial, .inr ⟨hb, ⟨r, c, fun q hq => by simp [hq], by simpa using hm.same, ?_⟩, rfl⟩⟩
    intro i j hi hj hn
    simpa using hm.miss i j hi hj (by simpa using hn)
  | panic => rw [hf] at e; cases e
  | hang => rw [hf] at e; cases e

theorem wrote_set {m m' : Mat T} (hm : m.Inv) (hk : m.kind ≠ .svec) {r c : Nat} {v : T} (e : m.set r c v = .ok m') :
    ∃ r c v, Mat.Wrote m m' r c v := by
  have hw := hm.wf hk
  have fin : r < m.rows → c < m.cols → ∃ r c v, Mat.Wrote m m' r c v := by
    intro hr hc
    obtain ⟨m1, h1, h2⟩ := Mat.set_ok hw hk hr hc v
    rw [h1] at e; cases e
    exact ⟨r, c, _, h2⟩
  have comp : m.kind = .csr ∨ m.kind = .csc ∨ m.kind = .dense → ∃ r c v, Mat.Wrote m m' r c v := by
    intro h
    obtain ⟨hr, hc⟩ := inRange_of_ok (o := Op.set r c v) h e
    exact fin hr hc
  cases m with
  | csr s => exact comp (.inl rfl)
  | csc s => exact comp (.inr (.inl rfl))
  | dense s => exact comp (.inr (.inr rfl))
  | svec s => exact absurd rfl hk
  | dvec s =>
    by_cases hi : r < s.l
    · by_cases hj : c = 0
      · exact fin hi (by subst hj; exact Nat.one_pos)
      · simp [Mat.set, DVec.set, hi, inRange, hj] at e
    · simp [Mat.set, DVec.set, hi, inRange] at e

theorem wrote_update {m m' : Mat T} (hm : m.Inv) (hk : m.kind ≠ .svec) {r c : Nat} {f : T → T} (e : m.update r c f = .ok m') :
    ∃ r c v, Mat.Wrote m m' r c v := by
  have hw := hm.wf hk
  have fin : r < m.rows → c < m.cols → ∃ r c v, Mat.Wrote m m' r c v := by
    intro hr hc
    obtain ⟨m1, h1, h2⟩ := Mat.update_ok hw hk hr hc f
    rw [h1] at e; cases e
    exact ⟨r, c, _, h2⟩
  have comp : m.kind = .csr ∨ m.kind = .csc ∨ m.kind = .dense → ∃ r c v, Mat.Wrote m m' r c v := by
    intro h
    obtain ⟨hr, hc⟩ := inRange_of_ok (o := Op.update r c f) h e
    exact fin hr hc
  cases m with
  | csr s => exact comp (.inl rfl)
  | csc s => exact comp (.inr (.inl rfl))
  | dense s => exact comp (.inr (.inr rfl))
  | svec s => exact absurd rfl hk
  | dvec s =>
    by_cases hi : r < s.l
    · by_cases hj : c = 0
      · exact fin hi (by subst hj; exact Nat.one_pos)
      · simp [Mat.update, DVec.update, DVec.updateWith, hi, inRange, hj] at e
    · simp [Mat.update, DVec.update, DVec.updateWith, hi, inRange] at e

theorem wrote_put {m m' : Mat T} (hm : m.Inv) (hk : m.kind = .dense ∨ m.kind = .dvec) {it : Mat.Iter} {v : T}
    (e : m.put it v = .ok m') : ∃ r c v, Mat.Wrote m m' r c v := by
  cases m with
  | csr s => simp [Mat.kind] at hk
  | csc s => simp [Mat.kind] at hk
  | svec s => simp [Mat.kind] at hk
  | dense s =>
    cases it with
    | dense it => exact wrote_set hm (by simp [Mat.kind]) (r := it.r) (c := it.cOld) (v := v) e
    | _ => cases e
  | dvec s =>
    cases it with
    | dvec it =>
      by_cases hi : it.rOld < s.l
      · refine wrote_set hm (by simp [Mat.kind]) (r := it.rOld) (c := 0) (v := v) ?_
        simpa [Mat.set, Mat.put, DVec.put, DVec.set, DVec.setVec, inRange, hi] using e
      · simp [Mat.put, DVec.put, DVec.setVec, inRange, hi] at e
    | _ => cases e

variable {mask : Mask}

theorem pre {P : Unit → Option Bool → Prop} {b : Option Bool} (hk : MaskInv w0 mask) {f : Mask → Prog T Unit}
    (hf : ∀ mk, MaskInv w0 mk → Calm (From w0 out) out P (f mk) b) :
    Calm (From w0 out) out P (do let mk ← Prog.orEmpty mask out; Prog.check mk out; f mk) b := by
  have h1 : ∀ mk : Mask, Calm (From w0 out) out (fun _ b' => b' = b) (Prog.maskRows mk) b := by
    rintro (_ | _ | p | _)
    · trivial
    · exact rfl
    · exact mono (rowsOf p b) fun _ _ h => h.1
    · exact rfl
  have h2 : ∀ mk : Mask, Calm (From w0 out) out (fun _ b' => b' = b) (Prog.maskCols mk) b := by
    rintro (_ | _ | p | _)
    · trivial
    · exact rfl
    · exact mono (colsOf p b) fun _ _ h => h.1
    · exact rfl
  have h3 : ∀ mk : Mask, MaskInv w0 mk → Calm (From w0 out) out P (do Prog.check mk out; f mk) b := by
    intro mk hm
    refine bind (P := fun _ b' => b' = b) (bind (h1 mk) fun _ b' e => ?_) fun _ b' e => by rw [e]; exact hf mk hm
    subst e
    refine bind (rowsOf out b') fun _ b1 e => ?_
    obtain ⟨rfl, -⟩ := e
    refine guard fun _ => bind (h2 mk) fun _ b2 e => ?_
    subst e
    refine bind (colsOf out b2) fun _ b3 e => ?_
    obtain ⟨rfl, -⟩ := e
    exact ite trivial (pure rfl)
  have hemp : ∀ r c, MaskInv w0 (.empty r c) := fun r c p e => by cases e
  cases mask with
  | nil =>
    show Calm (From w0 out) out P (Prog.rowsOf out >>= fun r => Prog.colsOf out >>= fun c =>
        Prog.check (.empty r c) out >>= fun _ => f (.empty r c)) b
    refine bind (rowsOf out b) fun _ b1 e => ?_
    obtain ⟨rfl, -⟩ := e
    refine bind (colsOf out b1) fun _ b1 e => ?_
    obtain ⟨rfl, -⟩ := e
    exact h3 _ (hemp _ _)
  | empty r c => exact h3 _ hk
  | given r c el => exact h3 _ hk
  | ref p => exact h3 _ hk

section ops
variable (hok : (w0.heap out).kind ≠ .svec)
include hok

theorem set (r c : Nat) (v : T) {b : Option Bool} (hb : b ≠ some false) :
    Calm (From w0 out) out (fun _ b' => b' = b.map fun _ => false) (Prog.set out r c v) b :=
  write hb fun _ _ hw e => wrote_set hw.inv (by rw [hw.same.1]; exact hok) e

theorem update (r c : Nat) (f : T → T) {b : Option Bool} (hb : b ≠ some false) :
    Calm (From w0 out) out (fun _ b' => b' = b.map fun _ => false) (Prog.update out r c f) b :=
  write hb fun _ _ hw e => wrote_update hw.inv (by rw [hw.same.1]; exact hok) e

/-- `if !mask.Element(r, c) { write }; continue`. -/
theorem masked {mask : Mask} (hk : MaskInv w0 mask) (r c r' c' : Nat) (v : T) (γ : Type) :
    Calm (From w0 out) out (fun _ b' => b' ≠ none)
      (do let e ← Prog.element mask r c
          if !e then Prog.set out r' c' v
          Pure.pure (none : Option γ)) (some true) := by
  refine bind (element hk r c _) fun e b h => ?_
  subst h
  refine ite (bind (set hok _ _ _ (by simp)) fun _ b h => pure (by rw [h]; simp)) (pure (by simp))

theorem maskedUpdate {mask : Mask} (hk : MaskInv w0 mask) (r c r' c' : Nat) (f : T → T) (γ : Type) :
    Calm (From w0 out) out (fun _ b' => b' ≠ none)
      (do let e ← Prog.element mask r c
          if !e then Prog.update out r' c' f
          Pure.pure (none : Option γ)) (some true) := by
  refine bind (element hk r c _) fun e b h => ?_
  subst h
  refine ite (bind (update hok _ _ _ (by simp)) fun _ b h => pure (by rw [h]; simp)) (pure (by simp))

theorem multiply {s m : Ref} (hs : (w0.heap s).Inv) (hk : MaskInv w0 mask) :
    Calm (From w0 out) out (fun _ _ => True) (Prog.multiply s m mask out)
      (if (w0.heap s).cols = 0 then none else some false) := by
  refine bind (rowsOf _ _) fun _ b e => ?_
  obtain ⟨rfl, -⟩ := e
  refine bind (colsOf _ _) fun _ b e => ?_
  obtain ⟨rfl, -⟩ := e
  refine guard fun _ => pre hk fun mk hk => ?_
  refine bind (rowsOf _ _) fun sr b e => ?_
  obtain ⟨rfl, rfl⟩ := e
  have row : ∀ r, r < (w0.heap s).rows → ∀ b, Calm (From w0 out) out
      (fun (v : Vec T) b' => b' = b ∧ v.length = (w0.heap s).cols) (Prog.ofObj s (fun x => x.rowsAt r)) b := by
    intro r hr b
    refine ofObj fun w v hw e => ?_
    obtain ⟨v', e1, e2, -⟩ := (hw.invs hs).rowsAt_total (i := r) (by rw [(hw.shape s).2.1]; exact hr)
    rw [e1] at e; cases e
    rw [e2, (hw.shape s).2.2]
  by_cases h0 : (w0.heap s).cols = 0
  · rw [if_pos h0]
    refine bind (P := fun _ _ => True) (mono (forN (Q := fun b => b = none) _ _ (fun r _ hr b hb => ?_) rfl) fun _ _ _ => trivial)
      fun _ _ _ => trivial
    subst hb
    refine bind (row r (by omega) _) fun rows b e => ?_
    obtain ⟨rfl, el⟩ := e
    refine bind (colsOf _ _) fun _ b e => ?_
    obtain ⟨rfl, -⟩ := e
    refine forN (Q := fun b => b = none) _ _ (fun c _ _ b hb => ?_) rfl
    subst hb
    refine bind (ofObj (Q := fun _ => True) fun _ _ _ _ => trivial) fun column b e => ?_
    obtain ⟨rfl, -⟩ := e
    rw [el, h0]
    show Calm (From w0 out) out _ (Prog.element mk r c >>= _) none
    refine bind (element hk r c _) fun e b h => ?_
    subst h
    exact ite (bind (set hok _ _ _ (by simp)) fun _ b h => pure (by rw [h]; rfl)) (pure rfl)
  · rw [if_neg h0]
    refine bind (P := fun _ _ => True) (mono (forN (Q := fun b => b ≠ none) _ _ (fun r _ hr b hb => ?_) (by simp)) fun _ _ _ => trivial)
      fun _ _ _ => trivial
    refine bind (row r (by omega) _) fun rows b' e => ?_
    obtain ⟨rfl, el⟩ := e
    refine bind (colsOf _ _) fun _ b e => ?_
    obtain ⟨rfl, -⟩ := e
    refine forN (Q := fun b => b ≠ none) _ _ (fun c _ _ b hb => ?_) hb
    refine bind (ofObj (Q := fun _ => True) fun _ _ _ _ => trivial) fun column b e => ?_
    obtain ⟨rfl, -⟩ := e
    refine bind (dot _ _ _ hb) ?_
    rintro (_ | sum) b' h
    · refine pure ?_
      rcases h with rfl | ⟨-, rfl⟩
      · simp
      · exact hb
    · rcases h with rfl | ⟨h, -⟩
      · exact masked hok hk r c r c sum Unit
      · exact absurd (el.symm.trans h) h0

theorem overTarget {g : Nat} {over : Ref} {t : Nat → Nat → T → Prog T Unit} {b : Option Bool} (hb : b ≠ none)
    (h : ∀ r c v, Calm (From w0 out) out (fun _ b' => b' ≠ none) (t r c v) (some true)) :
    Calm (From w0 out) out (fun _ _ => True)
      (do let _ ← Prog.forEach g over (some ()) (fun r c v => do t r c v; Pure.pure none); Pure.pure ()) b :=
  bind (forEach (fun r c v => bind (h r c v) fun _ _ h => pure h) hb) fun _ _ _ => trivial

theorem elementWiseMultiply {g : Nat} {s m : Ref} (hs : (w0.heap s).Inv) (hm : (w0.heap m).Inv) (hk : MaskInv w0 mask) :
    Calm (From w0 out) out (fun _ _ => True) (Prog.elementWiseMultiply g s m mask out) (some false) := by
  refine pre hk fun mk hk => ?_
  have h1 : ∀ r c (v : T), Calm (From w0 out) out (fun _ b' => b' ≠ none) (Prog.eMulSetSource out mk r c v) (some true) := by
    intro r c v
    refine bind (element hk r c _) fun e b h => ?_
    subst h
    exact ite (mono (update hok _ _ _ (by simp)) fun _ b h => by rw [h]; simp) (pure (by simp))
  have h2 : ∀ {src : Ref}, (w0.heap src).Inv → ∀ r c (v : T),
      Calm (From w0 out) out (fun _ b' => b' ≠ none) (Prog.eMulTarget src out mk r c v) (some true) := by
    intro src hsrc r c v
    refine bind (at' hsrc r c _) fun e b h => ?_
    subst h
    refine ite (bind (element hk r c _) fun e b h => ?_) (pure (by simp))
    subst h
    exact ite (mono (set hok _ _ _ (by simp)) fun _ b h => by rw [h]; simp) (pure (by simp))
  dsimp only
  split
  · next h => subst h; exact overTarget hok (by simp) h1
  split
  · next h => subst h; exact overTarget hok (by simp) h1
  refine bind (isSparse _ _) fun _ b e => ?_
  subst e
  exact ite (overTarget hok (by simp) (h2 hm)) (overTarget hok (by simp) (h2 hs))

theorem add {g : Nat} {s m : Ref} (hs : (w0.heap s).Inv) (hm : (w0.heap m).Inv) (hk : MaskInv w0 mask) :
    Calm (From w0 out) out (fun _ _ => True) (Prog.add g s m mask out) (some false) := by
  refine bind (colsOf _ _) fun _ b e => ?_
  obtain ⟨rfl, -⟩ := e
  refine bind (colsOf _ _) fun _ b e => ?_
  obtain ⟨rfl, -⟩ := e
  refine guard fun _ => ?_
  refine bind (rowsOf _ _) fun _ b e => ?_
  obtain ⟨rfl, -⟩ := e
  refine bind (rowsOf _ _) fun _ b e => ?_
  obtain ⟨rfl, -⟩ := e
  refine guard fun _ => pre hk fun mk hk => bind (isSparse _ _) fun sp b e => ?_
  subst e
  have body : ∀ {src : Ref}, (w0.heap src).Inv → ∀ r c (v : T), Calm (From w0 out) out (fun _ b' => b' ≠ none)
      (do let value ← Prog.at' src r c
          let e ← Prog.element mk r c
          if !e then Prog.set out r c (value + v)
          Pure.pure (none : Option Unit)) (some true) := by
    intro src hsrc r c v
    refine bind (at' hsrc r c _) fun e b h => ?_
    subst h
    exact masked hok hk r c r c _ Unit
  cases sp
  · exact bind (forEach (body hs) (by simp)) fun _ _ _ => trivial
  · exact bind (forEach (body hm) (by simp)) fun _ _ _ => trivial

theorem eAddLoop {g : Nat} {src : Ref} (hk : MaskInv w0 mask) {b : Option Bool} (hb : b ≠ none) :
    Calm (From w0 out) out (fun _ b' => b' ≠ none) (Prog.eAddLoop g src mask out) b :=
  forEach (fun r c v => ite (masked hok hk r c r c v Unit) (pure (by simp))) hb

theorem elementWiseAdd {g : Nat} {s m : Ref} (hk : MaskInv w0 mask) :
    Calm (From w0 out) out (fun _ _ => True) (Prog.elementWiseAdd g s m mask out) (some false) := by
  refine pre hk fun mk hk => ?_
  have h2 : ∀ b : Option Bool, b ≠ none → Calm (T := T) (From w0 out) out (fun _ _ => True)
      (if m ≠ out then do let _ ← Prog.eAddLoop g m mk out; Pure.pure () else Pure.pure ()) b := fun b hb =>
    ite (bind (eAddLoop hok hk hb) fun _ _ _ => trivial) (pure trivial)
  refine ite (bind (eAddLoop hok hk (by simp)) ?_) (h2 _ (by simp))
  rintro (_ | _) b hb
  · exact h2 b hb
  · exact pure trivial

theorem subtract {g : Nat} {s m : Ref} (hk : MaskInv w0 mask) :
    Calm (From w0 out) out (fun _ _ => True) (Prog.subtract g s m mask out) (some false) := by
  refine bind (colsOf _ _) fun _ b e => ?_
  obtain ⟨rfl, -⟩ := e
  refine bind (colsOf _ _) fun _ b e => ?_
  obtain ⟨rfl, -⟩ := e
  refine guard fun _ => ?_
  refine bind (rowsOf _ _) fun _ b e => ?_
  obtain ⟨rfl, -⟩ := e
  refine bind (rowsOf _ _) fun _ b e => ?_
  obtain ⟨rfl, -⟩ := e
  refine guard fun _ => pre hk fun mk hk => ?_
  exact bind (forEach (fun r c v => maskedUpdate hok hk r c r c _ Unit) (by simp)) fun _ _ _ => trivial

theorem transpose {g : Nat} {s : Ref} (hk : MaskInv w0 mask) :
    Calm (From w0 out) out (fun _ _ => True) (Prog.transpose g s mask out) (some false) :=
  pre hk fun _ hk => bind (forEach (fun r c v => masked hok hk r c c r v Unit) (by simp)) fun _ _ _ => trivial

end ops

theorem loopMap (hd : (w0.heap out).kind = .dense ∨ (w0.heap out).kind = .dvec) {f : Nat → Nat → T → Prog T T}
    (hf : ∀ r c v, Calm (From w0 out) out (fun _ b' => b' = some true) (f r c v) (some true)) (k : Nat) (it : Mat.Iter)
    {b : Option Bool} (hn : b ≠ none) :
    Calm (From w0 out) out (fun _ _ => True) (Prog.loopMap out true f k it) b := by
  induction k generalizing it b with
  | zero => unfold Prog.loopMap; exact ite trivial (pure trivial)
  | succ k ih =>
    unfold Prog.loopMap
    refine ite ⟨hn, ?_⟩ (pure trivial)
    show Calm (From w0 out) out _ (Prog.ofObj out (fun m => m.step it) >>= _) _
    refine bind (ofObj (Q := fun _ => True) fun _ _ _ _ => trivial) ?_
    rintro ⟨it', r, c, v⟩ _ ⟨rfl, -⟩
    refine bind (hf r c v) fun v' b h => ?_
    subst h
    refine bind (write (by simp) fun w m' hw e => wrote_put hw.inv (by rw [hw.same.1]; exact hd) e) fun _ b h => ?_
    exact ih it' (by rw [h]; simp)

theorem forMap (hd : (w0.heap out).kind = .dense ∨ (w0.heap out).kind = .dvec) {g : Nat} {f : Nat → Nat → T → Prog T T}
    (hf : ∀ r c v, Calm (From w0 out) out (fun _ b' => b' = some true) (f r c v) (some true)) :
    Calm (From w0 out) out (fun _ _ => True) (Prog.forMap g out true f) (some false) :=
  bind (ofObj (Q := fun _ => True) fun _ _ _ _ => trivial) fun it _ h => loopMap hd hf g it (by rw [h.1]; simp)

theorem negative (hd : (w0.heap out).kind = .dense ∨ (w0.heap out).kind = .dvec) {g : Nat} (hk : MaskInv w0 mask) :
    Calm (From w0 out) out (fun _ _ => True) (Prog.negative g mask out) (some false) := by
  refine pre hk fun mk hk => bind (forMap hd fun r c v => bind (element hk r c _) fun e b h => ?_) fun _ _ _ => trivial
  subst h
  exact ite (pure rfl) (pure rfl)

theorem apply (hok : (w0.heap out).kind ≠ .svec) {g : Nat} {s : Ref} {u : T → T}
    (hd : s = out → (w0.heap out).kind = .dense ∨ (w0.heap out).kind = .dvec) (hk : MaskInv w0 mask) :
    Calm (From w0 out) out (fun _ _ => True) (Prog.apply g s mask u out) (some false) := by
  refine pre hk fun mk hk => ?_
  split
  · next h =>
    subst h
    refine bind (forMap (hd rfl) fun r c v => bind (element hk r c _) fun e b h => ?_) fun _ _ _ => trivial
    subst h
    exact ite (pure rfl) (pure rfl)
  · exact bind (forEach (fun r c v => masked hok hk r c c r _ Unit) (by simp)) fun _ _ _ => trivial

/-- The mode the operator starts in. -/
def start (w0 : World T) : OpCall T → Option Bool
  | .mxm s _ | .mxv s _ | .vxm _ s => if (w0.heap s).cols = 0 then none else some false
  | _ => some false

/-- The operators write at most one cell between two looks. -/
theorem steps (g : Nat) (op : OpCall T) (hok : (w0.heap out).kind ≠ .svec) (hop : ∀ q ∈ op.operands, (w0.heap q).Inv)
    (hk : MaskInv w0 mask) (hd : op.Maps out → (w0.heap out).kind = .dense ∨ (w0.heap out).kind = .dvec) :
    Calm (From w0 out) out (fun _ _ => True) (op.steps g mask out) (start w0 op) := by
  have two : ∀ {s m : Ref} {x : Prog T Unit}, Calm (From w0 out) out (fun _ _ => True) x (some false) →
      Calm (From w0 out) out (fun _ _ => True) (Prog.guardMatrix s m x) (some false) ∧
      Calm (From w0 out) out (fun _ _ => True) (Prog.guardVector s m x) (some false) := by
    intro s m x hx
    constructor
    · refine bind (rowsOf _ _) fun _ b e => ?_
      obtain ⟨rfl, -⟩ := e
      refine bind (colsOf _ _) fun _ b e => ?_
      obtain ⟨rfl, -⟩ := e
      exact guard fun _ => hx
    · refine bind (rowsOf _ _) fun _ b e => ?_
      obtain ⟨rfl, -⟩ := e
      refine bind (rowsOf _ _) fun _ b e => ?_
      obtain ⟨rfl, -⟩ := e
      exact guard fun _ => hx
  cases op with
  | mxm s m => exact multiply hok (hop s (by simp [OpCall.operands])) hk
  | mxv s m => exact multiply hok (hop s (by simp [OpCall.operands])) hk
  | vxm s m => exact multiply hok (hop m (by simp [OpCall.operands])) hk
  | add s m => exact add hok (hop s (by simp [OpCall.operands])) (hop m (by simp [OpCall.operands])) hk
  | subtract s m => exact subtract hok hk
  | eMulMatrix s m =>
    exact (two (elementWiseMultiply hok (hop s (by simp [OpCall.operands])) (hop m (by simp [OpCall.operands])) hk)).1
  | eMulVector s m =>
    exact (two (elementWiseMultiply hok (hop s (by simp [OpCall.operands])) (hop m (by simp [OpCall.operands])) hk)).2
  | eAddMatrix s m => exact (two (elementWiseAdd hok hk)).1
  | eAddVector s m => exact (two (elementWiseAdd hok hk)).2
  | apply s u => exact apply hok hd hk
  | negative s => exact negative (hd trivial) hk
  | transpose s => exact transpose hok hk

end Calm
end Prog
end GB
