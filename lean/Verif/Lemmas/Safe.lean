import Verif.Lemmas.Mul

/-!
# Operators on objects in any reachable state return

`Scene R w0 out w`: from `w0` only the object `out` has changed, keeping its type and shape and the
invariant `R`. `Safe` is total correctness with respect to it.
-/

namespace GB

set_option linter.unusedSectionVars false
set_option linter.unusedSimpArgs false

variable {T : Type} [GoNum T] [GoStore T]

open M

namespace Mat

/-! ## Objects in any reachable state -/

/-- In-range calls on an object in any reachable state return. -/
theorem Inv.apply_ok {m : Mat T} (h : m.Inv) {o : Op T} (ho : o.InRange m.rows m.cols) :
    ∃ m', o.apply m = .ok m' ∧ m'.Inv ∧ Same m' m := by
  have key : m.kind ≠ .svec → m.WF → ∃ m', o.apply m = .ok m' ∧ m'.Inv ∧ Same m' m := by
    intro hk hw
    obtain ⟨m', h1, h2, h3, -⟩ := Mat.apply_ok hw hk ho
    exact ⟨m', h1, h2.inv, h3⟩
  cases m with
  | csr s => exact key (by simp [kind]) h
  | csc s => exact key (by simp [kind]) h
  | dense s => exact key (by simp [kind]) h
  | dvec s => exact key (by simp [kind]) h
  | svec s =>
    have h : s.Weak := h
    cases o with
    | clear => exact ⟨_, rfl, (Mat.clear_ok _).1.inv, (Mat.clear_ok _).2.1⟩
    | set i j v =>
      obtain ⟨hi, hj⟩ := ho
      have hi : i < s.l := hi
      obtain rfl : j = 0 := by simp [cols] at hj; omega
      obtain ⟨s', e1, e2, e3⟩ := h.setVec_ok hi v
      exact ⟨.svec s', by simp [Op.apply, Mat.set, SVec.set, hi, show inRange 0 1 = true from rfl, e1], e3, rfl, e2, rfl⟩
    | update i j f =>
      obtain ⟨hi, hj⟩ := ho
      have hi : i < s.l := hi
      obtain rfl : j = 0 := by simp [cols] at hj; omega
      obtain ⟨v, g1, -⟩ := h.at_self hi
      obtain ⟨s', e1, e2, e3⟩ := h.setVec_ok hi (f v)
      exact ⟨.svec s', by simp [Op.apply, Mat.update, SVec.update, SVec.updateWith, hi, show inRange 0 1 = true from rfl, g1, e1],
        e3, rfl, e2, rfl⟩
    | read i j => exact ⟨.svec s, by simp [Op.apply, Inv.at_ok (m := .svec s) h ho.1 ho.2], h, Same.refl _⟩
    | element i j => exact ⟨.svec s, by simp [Op.apply, Inv.element_ok (m := .svec s) h ho.1 ho.2], h, Same.refl _⟩

/-- A history of in-range calls on an object in any reachable state returns. -/
theorem Inv.run_ok : ∀ (ops : List (Op T)) {m : Mat T}, m.Inv → (∀ o ∈ ops, o.InRange m.rows m.cols) →
    ∃ m', m.run ops = .ok m' ∧ m'.Inv ∧ Same m' m
  | [], m, h, _ => ⟨m, rfl, h, Same.refl m⟩
  | o :: os, m, h, ho => by
    obtain ⟨m1, h1, h2, h3⟩ := h.apply_ok (ho o (by simp))
    obtain ⟨m2, k1, k2, k3⟩ := Inv.run_ok os h2 (fun o' h' => by rw [h3.2.1, h3.2.2]; exact ho o' (by simp [h']))
    exact ⟨m2, by simp [run, h1, k1], k2, k3.trans h3⟩

theorem run_append : ∀ (a b : List (Op T)) (m : Mat T), m.run (a ++ b) = (do let m' ← m.run a; m'.run b)
  | [], b, m => rfl
  | o :: os, b, m => by
    show (do let m' ← o.apply m; m'.run (os ++ b)) = _
    simp only [run]
    cases o.apply m with
    | ok m' => simp [run_append os b m']
    | panic => rfl
    | hang => rfl

theorem Inv.wf {m : Mat T} (h : m.Inv) (hk : m.kind ≠ .svec) : m.WF := by
  cases m <;> first | exact h | exact absurd rfl hk

/-- The vectors handed out by `RowsAt` and `ColumnsAt` can be read at every position. -/
theorem Inv.rowsAt_total {m : Mat T} (h : m.Inv) {i : Nat} (hi : i < m.rows) :
    ∃ v, m.rowsAt i = .ok v ∧ v.length = m.cols ∧ ∀ l : Nat, l < m.cols → ∃ x, v.atVec l = .ok x := by
  by_cases hk : m.kind = .svec
  · cases m <;> simp [kind] at hk
    rename_i s
    have h : s.Weak := h
    have hi : i < s.l := hi
    obtain ⟨x, g1, -⟩ := h.at_self hi
    have hw : SVec.Weak (SVec.new 1 : SVec T) := (SVec.rep_new 1).weak
    have h01 : 0 < (SVec.new 1 : SVec T).l := by simp [SVec.new, SVec.newL]
    obtain ⟨s', e1, e2, e3⟩ := hw.setVec_ok h01 x
    have e1' : (SVec.new 1 : SVec T).setVec 0 x = .ok s' := e1
    refine ⟨.svec s', by simp [rowsAt, SVec.rowsAt, hi, g1, e1'], e2, fun l hl => ?_⟩
    obtain ⟨y, k, -⟩ := e3.at_self (i := l) (by rw [e2]; exact hl)
    exact ⟨y, k⟩
  · obtain ⟨v, e1, e2, e3⟩ := rowsAt_read (h.wf hk) hi
    exact ⟨v, e1, e2, fun l hl => ⟨_, e3 l hl⟩⟩

theorem Inv.columnsAt_total {m : Mat T} (h : m.Inv) {j : Nat} (hj : j < m.cols) :
    ∃ v, m.columnsAt j = .ok v ∧ v.length = m.rows ∧ ∀ l : Nat, l < m.rows → ∃ x, v.atVec l = .ok x := by
  by_cases hk : m.kind = .svec
  · cases m <;> simp [kind] at hk
    rename_i s
    have h : s.Weak := h
    obtain rfl : j = 0 := by simp [cols] at hj; omega
    refine ⟨.svec s, by simp [columnsAt, SVec.columnsAt, inRange, SVec.copy_eq s h.len], rfl, fun l hl => ?_⟩
    obtain ⟨y, k, -⟩ := h.at_self (i := l) hl
    exact ⟨y, k⟩
  · obtain ⟨v, e1, e2, e3⟩ := columnsAt_read (h.wf hk) hj
    exact ⟨v, e1, e2, fun l hl => ⟨_, e3 l hl⟩⟩

/-- The iterator has `n` more turns. -/
def Turns (m : Mat T) (it : Iter) (n : Nat) : Prop :=
  (∃ es, MapAt m it es ∧ es.length = n) ∨
  ∃ s i, m = .svec s ∧ it = .svec i ∧ s.Weak ∧ i.size = s.values.length ∧ i.last + n = i.size

theorem Inv.turns {m : Mat T} (h : m.Inv) : Turns m m.iter m.nvalues := by
  by_cases hk : m.kind = .svec
  · cases m <;> simp [kind] at hk
    rename_i s
    exact Or.inr ⟨s, s.iter, rfl, rfl, h, rfl, by simp [SVec.iter, nvalues]⟩
  · obtain ⟨es, h1, -, h3, -⟩ := entries_ok (h.wf hk)
    exact Or.inl ⟨es, h1, h3⟩

theorem Turns.zero {m : Mat T} {it : Iter} (h : Turns m it 0) : it.hasNext = false := by
  rcases h with ⟨es, h1, h2⟩ | ⟨s, i, rfl, rfl, -, h2, h3⟩
  · obtain rfl := List.length_eq_zero_iff.1 h2
    exact h1.nil
  · simp [Iter.hasNext, SVec.Iter.hasNext]; omega

theorem Turns.inv {m : Mat T} {it : Iter} {n : Nat} (h : Turns m it n) : m.Inv := by
  rcases h with ⟨es, h1, -⟩ | ⟨s, i, rfl, -, h, -⟩
  · exact h1.wf.inv
  · exact h

theorem Turns.succ {m : Mat T} {it : Iter} {n : Nat} (h : Turns m it (n + 1)) : it.hasNext = true ∧
    ∃ it' e, m.step it = .ok (it', e) ∧ e.1 < m.rows ∧ e.2.1 < m.cols ∧ Turns m it' n ∧
      ((m.kind ≠ .dense ∧ m.kind ≠ .dvec) → isZero e.2.2 = false) ∧
      ∀ v, Storable m.kind v → ∃ m', m.put it' v = .ok m' ∧ Turns m' it' n ∧ Same m' m ∧
        (m.kind ≠ .svec → m.set e.1 e.2.1 v = .ok m') := by
  rcases h with ⟨es, h1, h2⟩ | ⟨s, i, rfl, rfl, h, h2, h3⟩
  · cases es with
    | nil => simp at h2
    | cons e rest =>
      obtain ⟨g1, it', g2, g3, g4, g5, g6, g7⟩ := h1.cons
      refine ⟨g1, it', e, g2, g4, g5, Or.inl ⟨rest, g3, by simpa using h2⟩, ?_, fun v hv => ?_⟩
      · intro hk
        have : ∀ (m : Mat T) (it : Iter) (e : Nat × Nat × T) (rest : List (Nat × Nat × T)),
            (m.kind ≠ .dense ∧ m.kind ≠ .dvec) → MapAt m it (e :: rest) → isZero e.2.2 = false := by
          intro m it e rest hk h
          cases m <;> cases it <;> simp only [MapAt] at h <;> simp [kind] at hk
          · obtain ⟨rows, k, hr, -, -, he⟩ := h
            exact hr.entries_nz e (List.mem_of_mem_drop (he ▸ List.mem_cons_self))
          · obtain ⟨rows, k, hr, -, -, he⟩ := h
            exact hr.entries_nz e (List.mem_of_mem_drop (he ▸ List.mem_cons_self))
          · obtain ⟨es, k, hr, -, -, -, -, he⟩ := h
            have hm : e ∈ SVec.entries es := List.mem_of_mem_drop (he ▸ List.mem_cons_self)
            obtain ⟨x, hx, rfl⟩ := List.mem_map.1 hm
            exact hr.nz x hx
        exact this m it e rest hk h1
      · obtain ⟨m', p1, p2, p3⟩ := g7 v hv
        refine ⟨m', p1, Or.inl ⟨rest, p2, by simpa using h2⟩, p3.same, fun hk => ?_⟩
        obtain ⟨m2, q1, q2⟩ := Mat.set_ok h1.wf hk g4 g5 v
        rw [Mat.storable_keep hv] at q2
        rw [q1, q2.unique p3]
  · have hlt : i.last < s.values.length := by omega
    have hlt' : i.last < s.indices.length := by rw [h.len]; exact hlt
    refine ⟨by simp [Iter.hasNext, SVec.Iter.hasNext]; omega, .svec i.next, (s.indices[i.last], 0, s.values[i.last]),
      by simp [step, SVec.step, SVec.Iter.next, idx_ok hlt, idx_ok hlt'], h.bound _ (List.getElem_mem hlt'),
      Nat.one_pos, Or.inr ⟨s, _, rfl, rfl, h, h2, ?_⟩, fun _ => h.nz _ (List.getElem_mem hlt), fun v hv => ?_⟩
    · simp [SVec.Iter.next]; omega
    · have hv : isZero v = false := hv
      refine ⟨.svec { s with values := s.values.set i.last v }, by simp [put, SVec.put, hv, SVec.Iter.next, setIdx_ok hlt],
        Or.inr ⟨_, _, rfl, rfl, ⟨by simp [h.len], h.bound, ?_⟩, by simp [SVec.Iter.next, h2], ?_⟩, ⟨rfl, rfl, rfl⟩,
        fun hk => absurd rfl hk⟩
      · intro x hx
        rcases List.mem_or_eq_of_mem_set hx with hx | rfl
        · exact h.nz x hx
        · exact hv
      · simp [SVec.Iter.next]; omega

/-- The iterators over the dense formats do not depend on the contents. -/
theorem Turns.dense {m m' : Mat T} {it : Iter} {n : Nat} (hk : m.kind = .dense ∨ m.kind = .dvec) (hw : m'.WF)
    (hs : Same m' m) (h : Turns m it n) : Turns m' it n := by
  rcases h with ⟨es, h1, h2⟩ | ⟨s, i, rfl, -⟩
  · obtain ⟨e1, e2, e3⟩ := hs
    cases m <;> simp [kind] at hk <;> cases m' <;> simp [kind] at e1 <;> cases it <;> simp only [MapAt] at h1
    · rename_i s s' it
      have e2 : s'.r = s.r := e2
      have e3 : s'.c = s.c := e3
      obtain ⟨-, k, hi, hk, rfl⟩ := h1
      refine Or.inl ⟨s'.entries.drop k, ⟨hw, k, ⟨?_, hi.last, ?_, ?_⟩, ?_, rfl⟩, ?_⟩
      · rw [e2, e3]; exact hi.size
      · rw [e3]; exact hi.pos
      · rw [e3]; exact hi.le
      · simpa [Dense.entries, e2, e3] using hk
      · rw [← h2]; simp [Dense.entries, e2, e3]
    · rename_i s s' it
      have e2 : s'.l = s.l := e2
      obtain ⟨-, k, hi, hk, rfl⟩ := h1
      refine Or.inl ⟨s'.entries.drop k, ⟨hw, k, ⟨?_, hi.last, hi.r⟩, ?_, rfl⟩, ?_⟩
      · rw [e2]; exact hi.size
      · simpa [DVec.entries, e2] using hk
      · rw [← h2]; simp [DVec.entries, e2]
  · simp [kind] at hk

end Mat

/-! ## Total correctness -/

/-- See the head of the file. -/
structure Scene (R : Mat T → Prop) (w0 : World T) (out : Ref) (w : World T) : Prop where
  gas : w.gas = w0.gas
  next : w.next = w0.next
  reg : w.reg = w0.reg
  others : ∀ q, q ≠ out → w.heap q = w0.heap q
  inv : (w.heap out).Inv
  same : Mat.Same (w.heap out) (w0.heap out)
  good : R (w.heap out)

/-- `R` survives in-range calls. -/
def Kept (R : Mat T → Prop) : Prop := ∀ (m m' : Mat T) (o : Op T), R m → o.apply m = .ok m' → R m'

/-- From every scene the statement returns, in a scene, with a result satisfying `P`. -/
def Safe {α : Type} (R : Mat T → Prop) (w0 : World T) (out : Ref) (x : M T α) (P : α → Prop) : Prop :=
  ∀ w, Scene R w0 out w → ∃ a w', x w = .ok a w' ∧ Scene R w0 out w' ∧ P a

variable {R : Mat T → Prop} {w0 : World T} {out : Ref}

theorem Scene.init (h : (w0.heap out).Inv) (hR : R (w0.heap out)) : Scene R w0 out w0 :=
  ⟨rfl, rfl, rfl, fun _ _ => rfl, h, Mat.Same.refl _, hR⟩

theorem Scene.shape {w : World T} (h : Scene R w0 out w) (q : Ref) : Mat.Same (w.heap q) (w0.heap q) := by
  by_cases hq : q = out
  · subst hq; exact h.same
  · rw [h.others q hq]; exact Mat.Same.refl _

theorem Scene.invs {w : World T} (h : Scene R w0 out w) {q : Ref} (hq : (w0.heap q).Inv) : (w.heap q).Inv := by
  by_cases hq' : q = out
  · subst hq'; exact h.inv
  · rw [h.others q hq']; exact hq

theorem Scene.cancel {w : World T} (h : Scene R w0 out w) (c : Option Nat) : Scene R w0 out { w with cancel := c } :=
  ⟨h.gas, h.next, h.reg, h.others, h.inv, h.same, h.good⟩

theorem Scene.put {w : World T} (h : Scene R w0 out w) {m : Mat T} (h1 : m.Inv) (h2 : Mat.Same m (w.heap out)) (h3 : R m) :
    Scene R w0 out { w with heap := Function.update w.heap out m } :=
  ⟨h.gas, h.next, h.reg, fun q hq => by simpa [hq] using h.others q hq,
    by simpa using h1, by simpa using h2.trans h.same, by simpa using h3⟩

namespace Safe

variable {α β : Type}

theorem mono {x : M T α} {P Q : α → Prop} (h : Safe R w0 out x P) (hPQ : ∀ a, P a → Q a) : Safe R w0 out x Q := by
  intro w hw
  obtain ⟨a, w', h1, h2, h3⟩ := h w hw
  exact ⟨a, w', h1, h2, hPQ a h3⟩

theorem pure {P : α → Prop} {a : α} (h : P a) : Safe R w0 out (Pure.pure a : M T α) P :=
  fun w hw => ⟨a, w, rfl, hw, h⟩

theorem bind {x : M T α} {f : α → M T β} {P : α → Prop} {Q : β → Prop} (hx : Safe R w0 out x P)
    (hf : ∀ a, P a → Safe R w0 out (f a) Q) : Safe R w0 out (x >>= f) Q := by
  intro w hw
  obtain ⟨a, w', h1, h2, h3⟩ := hx w hw
  rw [bind_ok h1]
  exact hf a h3 w' h2

theorem rowsOf (p : Ref) : Safe R w0 out (M.rowsOf p : M T Nat) (fun n => n = (w0.heap p).rows) :=
  fun w hw => ⟨_, w, rfl, hw, (hw.shape p).2.1⟩

theorem colsOf (p : Ref) : Safe R w0 out (M.colsOf p : M T Nat) (fun n => n = (w0.heap p).cols) :=
  fun w hw => ⟨_, w, rfl, hw, (hw.shape p).2.2⟩

theorem valuesOf (p : Ref) : Safe R w0 out (M.valuesOf p : M T Nat) (fun _ => True) :=
  fun w hw => ⟨_, w, rfl, hw, trivial⟩

theorem isSparse (p : Ref) : Safe R w0 out (M.isSparse p : M T Bool) (fun _ => True) :=
  fun w hw => ⟨_, w, rfl, hw, trivial⟩

theorem poll : Safe R w0 out (M.poll : M T Bool) (fun _ => True) := by
  intro w hw
  by_cases hc : w.cancel = some 0
  · exact ⟨true, w, poll_stop hc, hw, trivial⟩
  · exact ⟨false, _, poll_go hc, hw.cancel _, trivial⟩

theorem at' {p : Ref} (hp : (w0.heap p).Inv) {i j : Nat} (hi : i < (w0.heap p).rows) (hj : j < (w0.heap p).cols) :
    Safe R w0 out (M.at' p i j : M T T) (fun _ => True) := by
  intro w hw
  have hs := hw.shape p
  exact ⟨_, w, at_ok (hw.invs hp) (by rw [hs.2.1]; exact hi) (by rw [hs.2.2]; exact hj), hw, trivial⟩

theorem ofObj_rowsAt {p : Ref} (hp : (w0.heap p).Inv) {i : Nat} (hi : i < (w0.heap p).rows) :
    Safe R w0 out (M.ofObj p (fun x => x.rowsAt i) : M T (Vec T)) (fun v => v.length = (w0.heap p).cols ∧
      ∀ l : Nat, l < (w0.heap p).cols → ∃ x, v.atVec l = .ok x) := by
  intro w hw
  have hs := hw.shape p
  obtain ⟨v, e1, e2, e3⟩ := (hw.invs hp).rowsAt_total (i := i) (by rw [hs.2.1]; exact hi)
  exact ⟨v, w, ofObj_ok e1, hw, by rw [e2, hs.2.2], by rw [← hs.2.2]; exact e3⟩

theorem ofObj_columnsAt {p : Ref} (hp : (w0.heap p).Inv) {j : Nat} (hj : j < (w0.heap p).cols) :
    Safe R w0 out (M.ofObj p (fun x => x.columnsAt j) : M T (Vec T)) (fun v => v.length = (w0.heap p).rows ∧
      ∀ l : Nat, l < (w0.heap p).rows → ∃ x, v.atVec l = .ok x) := by
  intro w hw
  have hs := hw.shape p
  obtain ⟨v, e1, e2, e3⟩ := (hw.invs hp).columnsAt_total (j := j) (by rw [hs.2.2]; exact hj)
  exact ⟨v, w, ofObj_ok e1, hw, by rw [e2, hs.2.1], by rw [← hs.2.1]; exact e3⟩

theorem call (hR : Kept R) (o : Op T) (ho : o.InRange (w0.heap out).rows (w0.heap out).cols) :
    Safe R w0 out (M.withObj out (fun m => do let m' ← o.apply m; .ok ((), m')) : M T Unit) (fun _ => True) := by
  intro w hw
  have hs := hw.shape out
  obtain ⟨m', h1, h2, h3⟩ := hw.inv.apply_ok (o := o) (by rw [hs.2.1, hs.2.2]; exact ho)
  exact ⟨(), _, withObj_ok (by rw [h1]; rfl), hw.put h2 h3 (hR _ _ o hw.good h1), trivial⟩

theorem set (hR : Kept R) {i j : Nat} (hi : i < (w0.heap out).rows) (hj : j < (w0.heap out).cols) (v : T) :
    Safe R w0 out (M.set out i j v) (fun _ => True) := call hR (.set i j v) ⟨hi, hj⟩

theorem update (hR : Kept R) {i j : Nat} (hi : i < (w0.heap out).rows) (hj : j < (w0.heap out).cols) (f : T → T) :
    Safe R w0 out (M.update out i j f) (fun _ => True) := call hR (.update i j f) ⟨hi, hj⟩

/-- What a mask argument must satisfy to be asked about cells of an `r × c` table. -/
def MaskOK (w0 : World T) (r c : Nat) : Mask → Prop
  | .nil => False
  | .empty _ _ => True
  | .ref p => (w0.heap p).Inv ∧ r ≤ (w0.heap p).rows ∧ c ≤ (w0.heap p).cols
  | .given _ _ el => ∀ i j, i < r → j < c → ∃ b, el i j = some b

theorem element {mask : Mask} {r c : Nat} (h : MaskOK w0 r c mask) {i j : Nat} (hi : i < r) (hj : j < c) :
    Safe R w0 out (mask.element i j : M T Bool) (fun _ => True) := by
  cases mask with
  | nil => exact h.elim
  | empty a b => exact pure trivial
  | given a b el =>
    obtain ⟨b, hb⟩ := h i j hi hj
    simp only [Mask.element, hb]
    exact pure trivial
  | ref p =>
    intro w hw
    have hs := hw.shape p
    obtain ⟨h1, h2, h3⟩ := h
    have hi' : i < (w.heap p).rows := by rw [hs.2.1]; omega
    have hj' : j < (w.heap p).cols := by rw [hs.2.2]; omega
    exact ⟨GoNum.glt 0 ((w.heap p).val i j), w, withObj_same (p := p) (f := fun m => m.element i j) ((hw.invs h1).element_ok hi' hj'), hw, trivial⟩

/-- `if !e then x`. -/
theorem unless' {x : M T Unit} (e : Bool) (h : Safe R w0 out x (fun _ => True)) :
    Safe R w0 out (if !e then x else Pure.pure ()) (fun _ => True) := by
  cases e
  · exact h
  · exact pure trivial

/-- Iterator loops, by the number of turns left. -/
theorem loopIter_total {p : Ref} {b0 : β} {body : Nat → Nat → T → M T (Option β)}
    {J : Mat.Iter → Nat → World T → Prop} {Q : World T → Prop}
    (hz : ∀ it w, J it 0 w → it.hasNext = false) (hQ : ∀ it n w, J it n w → Q w)
    (htick : ∀ it n w, J it n w → J it n { w with cancel := tick w.cancel })
    (hs : ∀ it n w, J it (n + 1) w → it.hasNext = true ∧ ∃ it' e, (w.heap p).step it = .ok (it', e) ∧
      ∃ x w', body e.1 e.2.1 e.2.2 w = .ok x w' ∧ J it' n w') :
    ∀ (g : Nat) (it : Mat.Iter) (n : Nat) (w : World T), n ≤ g → J it n w →
      ∃ x w', loopIter p (some b0) body g it w = .ok x w' ∧ Q w' := by
  intro g
  induction g with
  | zero =>
    intro it n w hg hJ
    obtain rfl : n = 0 := by omega
    exact ⟨none, w, by unfold loopIter; simp [hz it w hJ], hQ _ _ _ hJ⟩
  | succ g ih =>
    intro it n w hg hJ
    cases n with
    | zero => exact ⟨none, w, by unfold loopIter; simp [hz it w hJ], hQ _ _ _ hJ⟩
    | succ n =>
      obtain ⟨hn, -⟩ := hs it n w hJ
      by_cases hc : w.cancel = some 0
      · refine ⟨some b0, w, ?_, hQ _ _ _ hJ⟩
        unfold loopIter
        simp only [hn, if_true]
        rw [bind_ok (poll_stop hc)]
        rfl
      · obtain ⟨-, it', e, h1, x, w', h2, h3⟩ := hs it n _ (htick it _ w hJ)
        have hstep : loopIter p (some b0) body (g + 1) it w =
            (body e.1 e.2.1 e.2.2 >>= fun x => match x with
              | some b => Pure.pure (some b)
              | none => loopIter p (some b0) body g it') { w with cancel := tick w.cancel } := by
          conv => lhs; unfold loopIter
          simp only [hn, if_true]
          rw [bind_ok (poll_go hc)]
          simp only [Bool.false_eq_true, if_false]
          rw [bind_ok (ofObj_ok h1)]
          rfl
        rw [hstep, bind_ok h2]
        cases x with
        | some b => exact ⟨some b, w', rfl, hQ _ _ _ h3⟩
        | none => exact ih it' n w' (by omega) h3

/-- `Enumerate` loops: over another object than the output, or over a dense output. -/
theorem forEach {p : Ref} {b0 : β} {body : Nat → Nat → T → M T (Option β)} (hp : (w0.heap p).Inv)
    (hg : (w0.heap p).nvalues ≤ w0.gas) (hal : p = out → (w0.heap p).kind = .dense ∨ (w0.heap p).kind = .dvec)
    (hb : ∀ r c v, r < (w0.heap p).rows → c < (w0.heap p).cols → Safe R w0 out (body r c v) (fun _ => True)) :
    Safe R w0 out (M.forEach p (some b0) body) (fun _ => True) := by
  intro w hw
  rw [forEach_eq]
  have hnv : (w.heap p).nvalues = (w0.heap p).nvalues := by
    by_cases hpo : p = out
    · have hs := hw.shape p
      have hk := hal hpo
      revert hs hk
      cases w.heap p <;> cases w0.heap p <;> simp [Mat.Same, Mat.kind, Mat.rows, Mat.cols, Mat.nvalues]
      all_goals (intros; simp [*])
    · rw [hw.others p hpo]
  obtain ⟨x, w', h1, h2⟩ := loopIter_total (p := p) (b0 := b0) (body := body)
    (J := fun it n w => Scene R w0 out w ∧ Mat.Turns (w.heap p) it n) (Q := Scene R w0 out)
    (fun it w h => h.2.zero) (fun it n w h => h.1) (fun it n w h => ⟨h.1.cancel _, h.2⟩)
    (by
      rintro it n v ⟨hv, ht⟩
      obtain ⟨hn, it', e, g1, g2, g3, g4, -, -⟩ := ht.succ
      have hs := hv.shape p
      obtain ⟨x, v', k1, k2, -⟩ := hb e.1 e.2.1 e.2.2 (by rw [← hs.2.1]; exact g2) (by rw [← hs.2.2]; exact g3) v hv
      refine ⟨hn, it', e, g1, x, v', k1, k2, ?_⟩
      by_cases hpo : p = out
      · have hk : (v.heap p).kind = .dense ∨ (v.heap p).kind = .dvec := by rw [hs.1]; exact hal hpo
        have hs' := k2.shape p
        refine g4.dense hk ((k2.invs hp).wf ?_) ⟨hs'.1.trans hs.1.symm, hs'.2.1.trans hs.2.1.symm, hs'.2.2.trans hs.2.2.symm⟩
        rw [hs'.1]
        rcases hal hpo with h | h <;> rw [h] <;> simp
      · rw [k2.others p hpo, ← hv.others p hpo]
        exact g4)
    w.gas (w.heap p).iter (w.heap p).nvalues w (by rw [hnv, hw.gas]; exact hg) ⟨hw, (hw.invs hp).turns⟩
  exact ⟨x, w', h1, h2, trivial⟩

/-- Counting loops. -/
theorem forN {body : Nat → M T (Option β)} : ∀ (n i0 : Nat),
    (∀ i, i0 ≤ i → i < i0 + n → Safe R w0 out (body i) (fun _ => True)) →
    Safe R w0 out (M.forN n i0 body) (fun _ => True) := by
  intro n
  induction n with
  | zero => intro i0 _; exact pure trivial
  | succ n ih =>
    intro i0 h
    unfold M.forN
    refine bind (h i0 (Nat.le_refl _) (by omega)) (fun x _ => ?_)
    cases x with
    | some b => exact pure trivial
    | none => exact ih (i0 + 1) (fun i a b => h i (by omega) (by omega))

theorem dot {rows column : Vec T} {n : Nat} (ha : ∀ l : Nat, l < n → ∃ x, rows.atVec l = .ok x)
    (hb : ∀ l : Nat, l < n → ∃ x, column.atVec l = .ok x) : ∀ (k l : Nat), l + k = n → ∀ acc : T,
      Safe R w0 out (Ops.dot rows column k l acc) (fun _ => True) := by
  intro k
  induction k with
  | zero => intro l _ acc; exact pure trivial
  | succ k ih =>
    intro l hl acc
    unfold Ops.dot
    refine bind poll (fun stop _ => ?_)
    cases stop with
    | true => exact pure trivial
    | false =>
      obtain ⟨x, hx⟩ := ha l (by omega)
      obtain ⟨y, hy⟩ := hb l (by omega)
      simp only [Bool.false_eq_true, if_false, hx, hy]
      exact bind (P := fun z => z = y) (fun w hw => ⟨y, w, rfl, hw, rfl⟩)
        (fun _ _ => bind (P := fun z => z = x) (fun w hw => ⟨x, w, rfl, hw, rfl⟩)
          (fun _ _ => ih (l + 1) (by omega) _))

/-- Asking the mask changes nothing at all. -/
theorem element_same {mask : Mask} {r c : Nat} (h : MaskOK w0 r c mask) {i j : Nat} (hi : i < r) (hj : j < c)
    {w : World T} (hw : Scene R w0 out w) : ∃ b, mask.element i j w = .ok b w := by
  cases mask with
  | nil => exact h.elim
  | empty a b => exact ⟨false, rfl⟩
  | given a b el =>
    obtain ⟨b, hb⟩ := h i j hi hj
    simp only [Mask.element, hb]
    exact ⟨b, rfl⟩
  | ref p =>
    have hs := hw.shape p
    obtain ⟨h1, h2, h3⟩ := h
    have hi' : i < (w.heap p).rows := by rw [hs.2.1]; omega
    have hj' : j < (w.heap p).cols := by rw [hs.2.2]; omega
    exact ⟨GoNum.glt 0 ((w.heap p).val i j), withObj_same (p := p) (f := fun m => m.element i j) ((hw.invs h1).element_ok hi' hj')⟩

/-- `Map` loops over the output whose cancelled branch returns. -/
theorem forMap {f : Nat → Nat → T → M T T} (hR : ∀ (m m' : Mat T) (i j : Nat) (v : T), R m → m.Inv →
      (m.kind ≠ .svec → m.set i j v = .ok m') → m'.Inv → Mat.Same m' m → R m')
    (hg : (w0.heap out).nvalues ≤ w0.gas) (h0 : Scene R w0 out w0)
    (hf : ∀ r c v w, r < (w0.heap out).rows → c < (w0.heap out).cols → Scene R w0 out w →
      (((w0.heap out).kind ≠ .dense ∧ (w0.heap out).kind ≠ .dvec) → isZero v = false) →
      ∃ v', f r c v w = .ok v' w ∧ Mat.Storable (w0.heap out).kind v') :
    ∃ b w', M.forMap out true f w0 = .ok b w' ∧ Scene R w0 out w' := by
  have key : ∀ (g n : Nat) (it : Mat.Iter) (w : World T), n ≤ g → Scene R w0 out w → Mat.Turns (w.heap out) it n →
      ∃ b w', loopMap out true f g it w = .ok b w' ∧ Scene R w0 out w' := by
    intro g
    induction g with
    | zero =>
      intro n it w hn hw ht
      obtain rfl : n = 0 := by omega
      exact ⟨false, w, by unfold loopMap; simp [ht.zero], hw⟩
    | succ g ih =>
      intro n it w hn hw ht
      cases n with
      | zero => exact ⟨false, w, by unfold loopMap; simp [ht.zero], hw⟩
      | succ n =>
        obtain ⟨h1, it', e, h2, h3, h4, -, h6, h7⟩ := ht.succ
        by_cases hc : w.cancel = some 0
        · refine ⟨true, w, ?_, hw⟩
          unfold loopMap
          simp only [h1, if_true]
          rw [bind_ok (poll_stop hc)]
          rfl
        · have hs := hw.same
          obtain ⟨v', k1, k2⟩ := hf e.1 e.2.1 e.2.2 { w with cancel := tick w.cancel } (by rw [← hs.2.1]; exact h3)
            (by rw [← hs.2.2]; exact h4) (hw.cancel _) (by rw [← hs.1]; exact h6)
          obtain ⟨m', p1, p2, p3, p4⟩ := h7 v' (by rw [hs.1]; exact k2)
          have hstep : loopMap out true f (g + 1) it w =
              loopMap out true f g it' { w with cancel := tick w.cancel, heap := Function.update w.heap out m' } := by
            conv => lhs; unfold loopMap
            simp only [h1, if_true]
            rw [bind_ok (poll_go hc)]
            simp only [Bool.false_eq_true, if_false]
            rw [bind_ok (ofObj_ok h2)]
            simp only
            rw [bind_ok k1, bind_ok (withObj_ok (a := ()) (m := m') (by simp [p1]))]
          rw [hstep]
          refine ih n it' _ (by omega) ((hw.cancel (tick w.cancel)).put p2.inv p3 ?_) (by simpa using p2)
          exact hR _ m' e.1 e.2.1 v' hw.good hw.inv p4 p2.inv p3
  rw [forMap_eq]
  exact key w0.gas _ _ w0 hg h0 h0.inv.turns

/-! ## The operators -/

variable {mask : Mask}

theorem resolve_ok {r c : Nat} (hF : mask.Fits w0 out) (hS : mask.Sound w0)
    (h : ¬ mask.Blank → r ≤ (w0.heap out).rows ∧ c ≤ (w0.heap out).cols) : MaskOK w0 r c (mask.resolve w0 out) := by
  cases mask with
  | nil => trivial
  | empty a b => trivial
  | given a b el =>
    obtain ⟨h1, h2⟩ := h id
    exact fun i j hi hj => hS i j (by rw [hF.1]; omega) (by rw [hF.2]; omega)
  | ref p =>
    obtain ⟨h1, h2⟩ := h id
    exact ⟨hS, by rw [hF.1]; exact h1, by rw [hF.2]; exact h2⟩

/-- The common beginning of the operators, at the start. -/
theorem pre (hF : mask.Fits w0 out) {k : Mask → M T α} {Q : World T → Prop}
    (h : ∃ a w', k (mask.resolve w0 out) w0 = .ok a w' ∧ Q w') :
    ∃ a w', (do let mask ← mask.orEmpty out; mask.check out; k mask) w0 = .ok a w' ∧ Q w' := by
  rw [Mask.pre_ok hF]; exact h

theorem run {x : M T α} {P : α → Prop} (h : Safe R w0 out x P) (hw : Scene R w0 out w0) :
    ∃ a w', x w0 = .ok a w' ∧ Scene R w0 out w' := by
  obtain ⟨a, w', h1, h2, -⟩ := h w0 hw
  exact ⟨a, w', h1, h2⟩

/-- `if !e { x }` followed by `y`, as the `do` notation lays it out. -/
theorem unlessThen {x : M T Unit} {y : M T β} {P : Unit → Prop} {Q : β → Prop} (e : Bool) (h : Safe R w0 out x P)
    (hy : Safe R w0 out y Q) : Safe R w0 out (if (!e) = true then (do x; y) else y) Q := by
  cases e with
  | true => exact hy
  | false => exact bind h (fun _ _ => hy)

/-- Forgetting a result. -/
theorem drop {x : M T α} {P : α → Prop} (h : Safe R w0 out x P) :
    Safe R w0 out (do let _ ← x; Pure.pure () : M T Unit) (fun _ => True) := bind h (fun _ _ => pure trivial)

theorem multiply (hR : Kept R) {s m : Ref} (h0 : Scene R w0 out w0) (hs : (w0.heap s).Inv) (hm : (w0.heap m).Inv)
    (h1 : (w0.heap m).rows = (w0.heap s).cols) (h2 : (w0.heap out).rows = (w0.heap s).rows)
    (h3 : (w0.heap out).cols = (w0.heap m).cols) (hF : mask.Fits w0 out) (hS : mask.Sound w0) :
    ∃ a w', Ops.multiply s m mask out w0 = .ok a w' ∧ Scene R w0 out w' := by
  have hM := resolve_ok (r := (w0.heap out).rows) (c := (w0.heap out).cols) hF hS (fun _ => ⟨Nat.le_refl _, Nat.le_refl _⟩)
  unfold Ops.multiply
  rw [bind_ok (show M.rowsOf m w0 = .ok _ w0 from rfl), bind_ok (show M.colsOf s w0 = .ok _ w0 from rfl)]
  simp only [h1, ne_eq, not_true, if_false]
  refine pre hF ?_
  refine run (P := fun _ => True) ?_ h0
  refine bind (rowsOf s) (fun sr hsr => ?_)
  subst hsr
  refine bind (P := fun _ => True) ?_ (fun _ _ => pure trivial)
  refine forN _ _ (fun r _ hr => ?_)
  have hr : r < (w0.heap s).rows := by omega
  refine bind (ofObj_rowsAt hs hr) (fun v hv => bind (colsOf m) (fun mc hmc => ?_))
  subst hmc
  refine forN _ _ (fun c _ hc => ?_)
  have hc : c < (w0.heap m).cols := by omega
  refine bind (ofObj_columnsAt hm hc) (fun u hu => ?_)
  rw [hv.1]
  refine bind (dot hv.2 (by rw [← h1]; exact hu.2) _ _ (by omega) _) (fun x _ => ?_)
  cases x with
  | none => exact pure trivial
  | some sum =>
    refine bind (element hM (by rw [h2]; exact hr) (by rw [h3]; exact hc)) (fun e _ => ?_)
    exact unlessThen e (set hR (by rw [h2]; exact hr) (by rw [h3]; exact hc) _) (pure trivial)

theorem add (hR : Kept R) {s m : Ref} (h0 : Scene R w0 out w0) (hs : (w0.heap s).Inv) (hm : (w0.heap m).Inv)
    (h1 : SameShape (w0.heap s) (w0.heap m)) (h2 : SameShape (w0.heap s) (w0.heap out)) (hF : mask.Fits w0 out)
    (hS : mask.Sound w0) (hgs : (w0.heap s).nvalues ≤ w0.gas) (hgm : (w0.heap m).nvalues ≤ w0.gas)
    (hal : s = out ∨ m = out → (w0.heap out).kind = .dense ∨ (w0.heap out).kind = .dvec) :
    ∃ a w', Ops.add s m mask out w0 = .ok a w' ∧ Scene R w0 out w' := by
  have hM := resolve_ok (r := (w0.heap out).rows) (c := (w0.heap out).cols) hF hS (fun _ => ⟨Nat.le_refl _, Nat.le_refl _⟩)
  unfold Ops.add
  rw [bind_ok (show M.colsOf s w0 = .ok _ w0 from rfl), bind_ok (show M.colsOf m w0 = .ok _ w0 from rfl)]
  simp only [h1.2, ne_eq, not_true, if_false]
  rw [bind_ok (show M.rowsOf s w0 = .ok _ w0 from rfl), bind_ok (show M.rowsOf m w0 = .ok _ w0 from rfl)]
  simp only [h1.1, ne_eq, not_true, if_false]
  refine pre hF ?_
  refine run (P := fun _ => True) ?_ h0
  refine bind (isSparse s) (fun sp _ => ?_)
  have key : ∀ over source : Ref, (w0.heap over).Inv → (w0.heap source).Inv → (w0.heap over).nvalues ≤ w0.gas →
      (over = s ∨ over = m) → SameShape (w0.heap over) (w0.heap source) → SameShape (w0.heap over) (w0.heap out) →
      Safe R w0 out (do
        let _ ← M.forEach over (some ()) (fun r c v => do
          let value ← M.at' source r c
          let e ← (mask.resolve w0 out).element r c
          if !e then M.set out r c (value + v)
          Pure.pure none)
        Pure.pure () : M T Unit) (fun _ => True) := by
    intro over source i1 i2 hg ho s1 s2
    refine drop (forEach i1 hg (fun h => ?_) (fun r c v hr hc => ?_))
    · rw [h]
      rcases ho with rfl | rfl
      · exact hal (Or.inl h)
      · exact hal (Or.inr h)
    · refine bind (at' i2 (by rw [← s1.1]; exact hr) (by rw [← s1.2]; exact hc)) (fun x _ => ?_)
      refine bind (element hM (by rw [← s2.1]; exact hr) (by rw [← s2.2]; exact hc)) (fun e _ => ?_)
      exact unlessThen e (set hR (by rw [← s2.1]; exact hr) (by rw [← s2.2]; exact hc) _) (pure trivial)
  cases sp with
  | true => exact key s m hs hm hgs (Or.inl rfl) h1 h2
  | false => exact key m s hm hs hgm (Or.inr rfl) ⟨h1.1.symm, h1.2.symm⟩ ⟨h1.1.symm.trans h2.1, h1.2.symm.trans h2.2⟩

theorem subtract (hR : Kept R) {s m : Ref} (h0 : Scene R w0 out w0) (hs : (w0.heap s).Inv)
    (h1 : SameShape (w0.heap s) (w0.heap m)) (h2 : SameShape (w0.heap s) (w0.heap out)) (hF : mask.Fits w0 out)
    (hS : mask.Sound w0) (hgs : (w0.heap s).nvalues ≤ w0.gas)
    (hal : s = out → (w0.heap out).kind = .dense ∨ (w0.heap out).kind = .dvec) :
    ∃ a w', Ops.subtract s m mask out w0 = .ok a w' ∧ Scene R w0 out w' := by
  have hM := resolve_ok (r := (w0.heap out).rows) (c := (w0.heap out).cols) hF hS (fun _ => ⟨Nat.le_refl _, Nat.le_refl _⟩)
  unfold Ops.subtract
  rw [bind_ok (show M.colsOf s w0 = .ok _ w0 from rfl), bind_ok (show M.colsOf m w0 = .ok _ w0 from rfl)]
  simp only [h1.2, ne_eq, not_true, if_false]
  rw [bind_ok (show M.rowsOf s w0 = .ok _ w0 from rfl), bind_ok (show M.rowsOf m w0 = .ok _ w0 from rfl)]
  simp only [h1.1, ne_eq, not_true, if_false]
  refine pre hF ?_
  refine run (P := fun _ => True) (drop (forEach hs hgs (fun h => ?_) (fun r c v hr hc => ?_))) h0
  · rw [h]; exact hal h
  · refine bind (element hM (by rw [← h2.1]; exact hr) (by rw [← h2.2]; exact hc)) (fun e _ => ?_)
    exact unlessThen e (update hR (by rw [← h2.1]; exact hr) (by rw [← h2.2]; exact hc) _) (pure trivial)

/-- A loop that stores the entries of another object. -/
theorem eAddLoop (hR : Kept R) {src : Ref} {mk : Mask} (hs : (w0.heap src).Inv)
    (h2 : SameShape (w0.heap src) (w0.heap out)) (hM : MaskOK w0 (w0.heap out).rows (w0.heap out).cols mk)
    (hg : (w0.heap src).nvalues ≤ w0.gas) (hne : src ≠ out) :
    Safe R w0 out (Ops.eAddLoop src mk out) (fun _ => True) := by
  unfold Ops.eAddLoop
  refine forEach hs hg (fun h => absurd h hne) (fun r c v hr hc => ?_)
  split
  · refine bind (element hM (by rw [← h2.1]; exact hr) (by rw [← h2.2]; exact hc)) (fun e _ => ?_)
    exact unlessThen e (set hR (by rw [← h2.1]; exact hr) (by rw [← h2.2]; exact hc) _) (pure trivial)
  · exact pure trivial

theorem elementWiseAdd (hR : Kept R) {s m : Ref} (h0 : Scene R w0 out w0) (hs : (w0.heap s).Inv) (hm : (w0.heap m).Inv)
    (h1 : SameShape (w0.heap s) (w0.heap out)) (h2 : SameShape (w0.heap m) (w0.heap out)) (hF : mask.Fits w0 out)
    (hS : mask.Sound w0) (hgs : (w0.heap s).nvalues ≤ w0.gas) (hgm : (w0.heap m).nvalues ≤ w0.gas) :
    ∃ a w', Ops.elementWiseAdd s m mask out w0 = .ok a w' ∧ Scene R w0 out w' := by
  have hM := resolve_ok (r := (w0.heap out).rows) (c := (w0.heap out).cols) hF hS (fun _ => ⟨Nat.le_refl _, Nat.le_refl _⟩)
  refine pre hF ?_
  refine run (P := fun _ => True) ?_ h0
  have rest : Safe R w0 out (if m ≠ out then do
      let _ ← Ops.eAddLoop m (mask.resolve w0 out) out
      Pure.pure ()
    else Pure.pure () : M T Unit) (fun _ => True) := by
    split
    · rename_i hne; exact drop (eAddLoop hR hm h2 hM hgm hne)
    · exact pure trivial
  split
  · rename_i hne
    refine bind (eAddLoop hR hs h1 hM hgs hne) (fun x _ => ?_)
    cases x with
    | some u => exact pure trivial
    | none => exact rest
  · exact rest

theorem elementWiseMultiply (hR : Kept R) {s m : Ref} (h0 : Scene R w0 out w0) (hs : (w0.heap s).Inv) (hm : (w0.heap m).Inv)
    (h1 : SameShape (w0.heap s) (w0.heap out)) (h2 : SameShape (w0.heap m) (w0.heap out)) (hF : mask.Fits w0 out)
    (hS : mask.Sound w0) (hgs : (w0.heap s).nvalues ≤ w0.gas) (hgm : (w0.heap m).nvalues ≤ w0.gas)
    (hal : s = out → m = out → (w0.heap out).kind = .dense ∨ (w0.heap out).kind = .dvec) :
    ∃ a w', Ops.elementWiseMultiply s m mask out w0 = .ok a w' ∧ Scene R w0 out w' := by
  have hM := resolve_ok (r := (w0.heap out).rows) (c := (w0.heap out).cols) hF hS (fun _ => ⟨Nat.le_refl _, Nat.le_refl _⟩)
  refine pre hF ?_
  have hset : ∀ r c (v : T), r < (w0.heap out).rows → c < (w0.heap out).cols →
      Safe R w0 out (do Ops.eMulSetSource out (mask.resolve w0 out) r c v; Pure.pure none : M T (Option Unit)) (fun _ => True) := by
    intro r c v hr hc
    refine bind (P := fun _ => True) ?_ (fun _ _ => pure trivial)
    unfold Ops.eMulSetSource
    exact bind (element hM hr hc) (fun e _ => unless' e (update hR hr hc _))
  have htar : ∀ (src : Ref) r c (v : T), (w0.heap src).Inv → SameShape (w0.heap src) (w0.heap out) →
      r < (w0.heap out).rows → c < (w0.heap out).cols →
      Safe R w0 out (do Ops.eMulTarget src out (mask.resolve w0 out) r c v; Pure.pure none : M T (Option Unit)) (fun _ => True) := by
    intro src r c v hi hsh hr hc
    refine bind (P := fun _ => True) ?_ (fun _ _ => pure trivial)
    unfold Ops.eMulTarget
    refine bind (at' hi (by rw [hsh.1]; exact hr) (by rw [hsh.2]; exact hc)) (fun x _ => ?_)
    split
    · exact bind (element hM hr hc) (fun e _ => unless' e (set hR hr hc _))
    · exact pure trivial
  dsimp only
  split
  · rename_i hmo
    subst hmo
    refine run (P := fun _ => True) (drop (forEach hs hgs (fun h => by rw [h]; exact hal h rfl) (fun r c v hr hc => ?_))) h0
    exact hset r c v (by rw [← h1.1]; exact hr) (by rw [← h1.2]; exact hc)
  · rename_i hmo
    split
    · rename_i hso
      subst hso
      refine run (P := fun _ => True) (drop (forEach hm hgm (fun h => absurd h hmo) (fun r c v hr hc => ?_))) h0
      exact hset r c v (by rw [← h2.1]; exact hr) (by rw [← h2.2]; exact hc)
    · rename_i hso
      refine run (P := fun _ => True) (bind (isSparse s) (fun sp _ => ?_)) h0
      cases sp with
      | true =>
        refine drop (forEach hs hgs (fun h => absurd h hso) (fun r c v hr hc => ?_))
        exact htar m r c v hm h2 (by rw [← h1.1]; exact hr) (by rw [← h1.2]; exact hc)
      | false =>
        refine drop (forEach hm hgm (fun h => absurd h hmo) (fun r c v hr hc => ?_))
        exact htar s r c v hs h1 (by rw [← h2.1]; exact hr) (by rw [← h2.2]; exact hc)

/-- The loops of `Transpose` and of `Apply` with a separate output. -/
theorem crossLoop (hR : Kept R) {s : Ref} {g : T → T} (h0 : Scene R w0 out w0) (hs : (w0.heap s).Inv)
    (h1 : (w0.heap out).rows = (w0.heap s).cols) (h2 : (w0.heap out).cols = (w0.heap s).rows) (hF : mask.Fits w0 out)
    (hS : mask.Sound w0) (hsq : mask.Blank ∨ (w0.heap s).rows = (w0.heap s).cols)
    (hgs : (w0.heap s).nvalues ≤ w0.gas) (hal : s = out → (w0.heap out).kind = .dense ∨ (w0.heap out).kind = .dvec) :
    ∃ a w', (do
      let _ ← M.forEach s (some ()) (fun r c value => do
        let e ← (mask.resolve w0 out).element r c
        if !e then M.set out c r (g value)
        Pure.pure none)
      Pure.pure () : M T Unit) w0 = .ok a w' ∧ Scene R w0 out w' := by
  have hM := resolve_ok (r := (w0.heap s).rows) (c := (w0.heap s).cols) hF hS (fun hp => by
    rcases hsq with h | h
    · exact absurd h hp
    · exact ⟨by omega, by omega⟩)
  refine run (P := fun _ => True) (drop (forEach hs hgs (fun h => by rw [h]; exact hal h) (fun r c v hr hc => ?_))) h0
  refine bind (element hM hr hc) (fun e _ => ?_)
  exact unlessThen e (set hR (by rw [h1]; exact hc) (by rw [h2]; exact hr) _) (pure trivial)

/-- The loops of `Negative` and of `Apply` in place. -/
theorem mapLoop (hR : ∀ (m m' : Mat T) (i j : Nat) (v : T), R m → m.Inv →
      (m.kind ≠ .svec → m.set i j v = .ok m') → m'.Inv → Mat.Same m' m → R m') {g : Bool → T → T} (h0 : Scene R w0 out w0)
    (hF : mask.Fits w0 out) (hS : mask.Sound w0) (hgs : (w0.heap out).nvalues ≤ w0.gas)
    (hst : ∀ b v, (((w0.heap out).kind ≠ .dense ∧ (w0.heap out).kind ≠ .dvec) → isZero v = false) →
      Mat.Storable (w0.heap out).kind (g b v)) {f : Nat → Nat → T → M T T}
    (hf : ∀ r c v, f r c v = (do let e ← (mask.resolve w0 out).element r c; Pure.pure (g e v) : M T T)) :
    ∃ a w', (do let _ ← M.forMap out true f; Pure.pure () : M T Unit) w0 = .ok a w' ∧ Scene R w0 out w' := by
  have hM := resolve_ok (r := (w0.heap out).rows) (c := (w0.heap out).cols) hF hS (fun _ => ⟨Nat.le_refl _, Nat.le_refl _⟩)
  obtain ⟨b, w', e1, e2⟩ := forMap (f := f) hR hgs h0 (by
    intro r c v w hr hc hw hz
    obtain ⟨e, he⟩ := element_same hM hr hc hw
    exact ⟨g e v, by rw [hf, bind_ok he]; rfl, hst e v hz⟩)
  exact ⟨(), w', by rw [bind_ok e1]; rfl, e2⟩

/-- `Equal` returns and changes no object. -/
theorem equal {s m : Ref} (hs : (w0.heap s).Inv) (hm : (w0.heap m).Inv) (hgs : (w0.heap s).nvalues ≤ w0.gas)
    (hgm : (w0.heap m).nvalues ≤ w0.gas) : ∃ b w', Ops.equal s m w0 = .ok b w' ∧ w'.heap = w0.heap := by
  have key : ∀ over other : Ref, (w0.heap over).Inv → (w0.heap other).Inv → (w0.heap over).nvalues ≤ w0.gas →
      SameShape (w0.heap over) (w0.heap other) →
      ∃ b w', (do
        let res ← M.forEach over (some false) (fun r c sV => do
          let mV ← M.at' other r c
          if !GoNum.geq sV mV then Pure.pure (some false) else Pure.pure none)
        match res with
        | some b => Pure.pure b
        | none => Pure.pure true : M T Bool) w0 = .ok b w' ∧ w'.heap = w0.heap := by
    intro over other h1 h2 hg hsh
    obtain ⟨x, w', e1, e2⟩ := loopIter_total (p := over) (b0 := false)
      (body := fun r c sV => (do
          let mV ← M.at' other r c
          if !GoNum.geq sV mV then Pure.pure (some false) else Pure.pure none : M T (Option Bool)))
      (J := fun it n w => w.heap = w0.heap ∧ Mat.Turns (w0.heap over) it n) (Q := fun w => w.heap = w0.heap)
      (fun it w h => h.2.zero) (fun it n w h => h.1) (fun it n w h => h)
      (by
        rintro it n v ⟨hv, ht⟩
        obtain ⟨hn, it', e, g1, g2, g3, g4, -, -⟩ := ht.succ
        refine ⟨hn, it', e, by rw [hv]; exact g1, ?_⟩
        have hat : M.at' other e.1 e.2.1 v = .ok ((v.heap other).val e.1 e.2.1) v :=
          withObj_same (p := other) (f := fun m => m.at' e.1 e.2.1)
            (by rw [hv]; exact h2.at_ok (by rw [← hsh.1]; exact g2) (by rw [← hsh.2]; exact g3))
        simp only [bind_ok hat]
        cases GoNum.geq e.2.2 ((v.heap other).val e.1 e.2.1)
        · exact ⟨_, v, rfl, hv, g4⟩
        · exact ⟨_, v, rfl, hv, g4⟩)
      w0.gas (w0.heap over).iter (w0.heap over).nvalues w0 hg ⟨rfl, h1.turns⟩
    rw [bind_ok ((forEach_eq _ _ _ _).trans e1)]
    cases x <;> exact ⟨_, w', rfl, e2⟩
  unfold Ops.equal
  rw [bind_ok (show M.colsOf s w0 = .ok _ w0 from rfl), bind_ok (show M.colsOf m w0 = .ok _ w0 from rfl)]
  split
  · exact ⟨_, w0, rfl, rfl⟩
  · rename_i hc
    rw [bind_ok (show M.rowsOf s w0 = .ok _ w0 from rfl), bind_ok (show M.rowsOf m w0 = .ok _ w0 from rfl)]
    split
    · exact ⟨_, w0, rfl, rfl⟩
    · rename_i hr
      have hsh : SameShape (w0.heap s) (w0.heap m) := ⟨not_not.1 hr, not_not.1 hc⟩
      rw [bind_ok (show M.isSparse s w0 = .ok _ w0 from rfl), bind_ok (show M.isSparse m w0 = .ok _ w0 from rfl),
        bind_ok (show M.valuesOf s w0 = .ok _ w0 from rfl), bind_ok (show M.valuesOf m w0 = .ok _ w0 from rfl)]
      split
      · exact ⟨_, w0, rfl, rfl⟩
      · cases decide ((w0.heap s).typeName ∈ w0.reg) with
        | true => exact key s m hs hm hgs hsh
        | false => exact key m s hm hs hgm ⟨hsh.1.symm, hsh.2.symm⟩

end Safe

end GB
