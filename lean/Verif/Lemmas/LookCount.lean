import Verif.Lemmas.LookCells

/-!
# How often an operation looks at its context
-/

namespace GB

set_option linter.unusedSectionVars false

variable {T : Type} [GoNum T]

namespace Prog

theorem run_none {α : Type} (x : Prog T α) {w : World T} (h : w.cancel = none) : (x.run w).world.cancel = none := by
  induction x generalizing w with
  | ret a => exact h
  | fail => exact h
  | hang => exact h
  | poll k ih =>
    show ((M.poll >>= fun b => Prog.run (k b)) w).world.cancel = none
    have e : M.poll w = .ok false w := by unfold M.poll; rw [h]
    simp only [bind, M.bind', e]
    exact ih false h
  | names k ih => exact ih w.reg h
  | call p f g ih =>
    show ((M.withObj p f >>= fun b => Prog.run (g b)) w).world.cancel = none
    simp only [bind, M.bind']
    unfold M.withObj
    cases f (w.heap p) with
    | ok x => exact ih x.1 (w := { w with heap := Function.update w.heap p x.2 }) h
    | panic => exact h
    | hang => exact h

theorem run_none' {α : Type} {x : Prog T α} {w w' : World T} {a : α} (h : w.cancel = none) (e : x.run w = .ok a w') :
    w'.cancel = none := by
  have := run_none x h; rw [e] at this; exact this

theorem looks_bind {α β : Type} (x : Prog T α) (f : α → Prog T β) {w w' : World T} {a : α} (h : w.cancel = none)
    (e : x.run w = .ok a w') : (x >>= f).looks w = x.looks w + (f a).looks w' := by
  rw [bind_def]
  induction x generalizing w with
  | ret b => cases e; exact (Nat.zero_add _).symm
  | fail => cases e
  | hang => cases e
  | poll k ih =>
    have e0 : M.poll w = .ok false w := by unfold M.poll; rw [h]
    have e1 : (M.poll >>= fun b => Prog.run (k b)) w = .ok a w' := e
    simp only [bind, M.bind', e0] at e1
    show looks (bind' (k false) f) w + 1 = looks (k false) w + 1 + _
    rw [ih false h e1]; omega
  | names k ih => exact ih w.reg h e
  | call p g k ih =>
    have e1 : (M.withObj p g >>= fun b => Prog.run (k b)) w = .ok a w' := e
    simp only [bind, M.bind'] at e1
    simp only [bind', looks]
    cases hp : M.withObj p g w with
    | ok b w1 =>
      rw [hp] at e1
      refine ih b ?_ e1
      unfold M.withObj at hp
      split at hp
      · cases hp; exact h
      · cases hp
      · cases hp
    | panic w1 => rw [hp] at e1; cases e1
    | hang w1 => rw [hp] at e1; cases e1

/-- From a state in `I` with a context that is never cancelled: if the program returns, it does so in a state in `J`, and
`P` holds of the result and the number of looks. -/
def Tally (I J : World T → Prop) {α : Type} (x : Prog T α) (P : α → Nat → Prop) : Prop :=
  ∀ w a w', I w → w.cancel = none → x.run w = .ok a w' → J w' ∧ P a (x.looks w)

namespace Tally

variable {I J K : World T → Prop} {α β : Type}

theorem pure {P : α → Nat → Prop} {a : α} (h : P a 0) : Tally I I (Pure.pure a : Prog T α) P := by
  intro w b w' hw _ e
  cases e; exact ⟨hw, h⟩

theorem fail {P : α → Nat → Prop} : Tally I J (Prog.fail : Prog T α) P := by intro w b w' _ _ e; cases e
theorem hang {P : α → Nat → Prop} : Tally I J (Prog.hang : Prog T α) P := by intro w b w' _ _ e; cases e

theorem bind {P : α → Nat → Prop} {Q : β → Nat → Prop} {x : Prog T α} {f : α → Prog T β} (hx : Tally I J x P)
    (hf : ∀ a n, P a n → Tally J K (f a) (fun b k => Q b (n + k))) : Tally I K (x >>= f) Q := by
  intro w b w' hw hc e
  rw [run_bind] at e
  simp only [Bind.bind, M.bind'] at e
  cases h1 : x.run w with
  | ok a w1 =>
    rw [h1] at e
    obtain ⟨g1, g2⟩ := hx w a w1 hw hc h1
    rw [looks_bind x f hc h1]
    exact hf a _ g2 w1 b w' g1 (run_none' hc h1) e
  | panic w1 => rw [h1] at e; cases e
  | hang w1 => rw [h1] at e; cases e

theorem mono {P Q : α → Nat → Prop} {x : Prog T α} (hx : Tally I J x P) (h : ∀ a n, P a n → Q a n) : Tally I J x Q :=
  fun w a w' hw hc e => ⟨(hx w a w' hw hc e).1, h _ _ (hx w a w' hw hc e).2⟩

theorem weaken {I' J' : World T → Prop} {P : α → Nat → Prop} {x : Prog T α} (hx : Tally I J x P) (hI : ∀ w, I' w → I w)
    (hJ : ∀ w, J w → J' w) : Tally I' J' x P :=
  fun w a w' hw hc e => ⟨hJ _ (hx w a w' (hI _ hw) hc e).1, (hx w a w' (hI _ hw) hc e).2⟩

theorem ite {P : α → Nat → Prop} {c : Prop} [Decidable c] {x y : Prog T α} (hx : Tally I J x P) (hy : Tally I J y P) :
    Tally I J (if c then x else y) P := by split; exacts [hx, hy]

theorem guard {P : α → Nat → Prop} {c : Prop} [Decidable c] {k : Unit → Prog T α} (h : Tally I J (k ()) P) :
    Tally I J (if c then Prog.fail >>= k else k ()) P := by
  split
  · intro w a w' _ _ e; cases e
  · exact h

/-- A method call. -/
theorem withObj {p : Ref} {f : Mat T → Out (α × Mat T)} {Q : α → Prop}
    (h : ∀ w a m', I w → f (w.heap p) = .ok (a, m') → J { w with heap := Function.update w.heap p m' } ∧ Q a) :
    Tally I J (Prog.withObj p f) (fun a n => n = 0 ∧ Q a) := by
  intro w a w' hw _ e
  have e1 : (M.withObj p f >>= fun b => Prog.run (ret b)) w = .ok a w' := e
  have hl : (Prog.withObj p f).looks w = 0 := by
    simp only [Prog.withObj, looks]
    split <;> rfl
  rw [hl]
  simp only [Bind.bind, M.bind', M.withObj] at e1
  cases hf : f (w.heap p) with
  | ok x =>
    rw [hf] at e1
    obtain ⟨b, m'⟩ := x
    obtain ⟨g1, g2⟩ := h w b m' hw hf
    cases e1
    exact ⟨g1, rfl, g2⟩
  | panic => rw [hf] at e1; cases e1
  | hang => rw [hf] at e1; cases e1

theorem ofObj {p : Ref} {f : Mat T → Out α} {Q : α → Prop} (h : ∀ w a, I w → f (w.heap p) = .ok a → Q a) :
    Tally I I (Prog.ofObj p f) (fun a n => n = 0 ∧ Q a) := by
  refine withObj fun w a m' hw e => ?_
  cases hf : f (w.heap p) with
  | ok x => rw [hf] at e; cases e; rw [Function.update_eq_self]; exact ⟨hw, h w _ hw hf⟩
  | panic => rw [hf] at e; cases e
  | hang => rw [hf] at e; cases e

theorem ofObj' {p : Ref} {f : Mat T → Out α} : Tally I I (Prog.ofObj p f) (fun _ n => n = 0) :=
  mono (ofObj (Q := fun _ => True) fun _ _ _ _ => trivial) fun _ _ h => h.1

theorem lift (x : Out α) : Tally I I (Prog.lift x : Prog T α) (fun _ n => n = 0) := by
  cases x with
  | ok a => exact pure rfl
  | panic => exact fail
  | hang => exact hang

/-- Sequencing after something that does not look. -/
theorem seq {P : α → Prop} {Q : β → Nat → Prop} {x : Prog T α} {f : α → Prog T β} (hx : Tally I J x (fun a n => n = 0 ∧ P a))
    (hf : ∀ a, P a → Tally J K (f a) Q) : Tally I K (x >>= f) Q := by
  refine bind hx fun a n h => ?_
  obtain ⟨rfl, h⟩ := h
  simpa only [Nat.zero_add] using hf a h

theorem seq' {Q : β → Nat → Prop} {x : Prog T α} {f : α → Prog T β} (hx : Tally I J x (fun _ n => n = 0))
    (hf : ∀ a, Tally J K (f a) Q) : Tally I K (x >>= f) Q :=
  seq (P := fun _ => True) (mono hx fun _ _ h => ⟨h, trivial⟩) fun a _ => hf a

/-- One look, at which the context is not found cancelled. -/
theorem look {x y : Prog T α} {P : α → Nat → Prop} (h : Tally I J y (fun a n => P a (n + 1))) :
    Tally I J (Prog.poll ret >>= fun stop => if stop = true then x else y) P := by
  intro w a w' hw hc e
  have e1 : (M.poll >>= fun b => Prog.run (if b = true then x else y)) w = .ok a w' := e
  have e0 : M.poll w = .ok false w := by unfold M.poll; rw [hc]
  simp only [Bind.bind, M.bind', e0] at e1
  exact h w a w' hw hc e1

/-- The iterator over `p` has `n` more turns, whatever happens to the objects within `I`. -/
def Turn (I : World T → Prop) (p : Ref) : Nat → Mat.Iter → Prop
  | 0, it => it.hasNext = false
  | n + 1, it => it.hasNext = true ∧ ∀ w it' e, I w → (w.heap p).step it = .ok (it', e) → Turn I p n it'

theorem loopIter {p : Ref} {oc : β} {body : Nat → Nat → T → Prog T (Option β)}
    (hb : ∀ r c v, Tally I I (body r c v) (fun a n => n = 0 ∧ a = none)) (k : Nat) {it : Mat.Iter} {n : Nat}
    (h : Turn I p n it) : Tally I I (Prog.loopIter p (some oc) body k it) (fun a l => l = n ∧ a = none) := by
  induction k generalizing it n with
  | zero =>
    unfold Prog.loopIter
    cases n with
    | zero => rw [if_neg (by simpa [Turn] using h)]; exact pure ⟨rfl, rfl⟩
    | succ n => rw [if_pos h.1]; exact hang
  | succ k ih =>
    unfold Prog.loopIter
    cases n with
    | zero => rw [if_neg (by simpa [Turn] using h)]; exact pure ⟨rfl, rfl⟩
    | succ n =>
      rw [if_pos h.1]
      refine look ?_
      refine seq (ofObj (Q := fun x => Turn I p n x.1) fun w x hw e => ?_) ?_
      · obtain ⟨it', y⟩ := x; exact h.2 w it' y hw e
      · rintro ⟨it', r, c, v⟩ hit
        refine seq (hb r c v) ?_
        rintro _ rfl
        exact mono (ih hit) fun a l hl => ⟨by omega, hl.2⟩

theorem loopMap {p : Ref} {f : Nat → Nat → T → Prog T T} (hb : ∀ r c v, Tally I I (f r c v) (fun _ n => n = 0))
    (hput : ∀ w m' it v, I w → (w.heap p).put it v = .ok m' → I { w with heap := Function.update w.heap p m' })
    (k : Nat) {it : Mat.Iter} {n : Nat} (h : Turn I p n it) :
    Tally I I (Prog.loopMap p true f k it) (fun _ l => l = n) := by
  induction k generalizing it n with
  | zero =>
    unfold Prog.loopMap
    cases n with
    | zero => rw [if_neg (by simpa [Turn] using h)]; exact pure rfl
    | succ n => rw [if_pos h.1]; exact hang
  | succ k ih =>
    unfold Prog.loopMap
    cases n with
    | zero => rw [if_neg (by simpa [Turn] using h)]; exact pure rfl
    | succ n =>
      rw [if_pos h.1]
      refine look ?_
      refine seq (ofObj (Q := fun x => Turn I p n x.1) fun w x hw e => ?_) ?_
      · obtain ⟨it', y⟩ := x; exact h.2 w it' y hw e
      · rintro ⟨it', r, c, v⟩ hit
        refine seq' (hb r c v) fun v' => ?_
        refine seq (Q := fun _ l => l + 1 = n + 1) (P := fun _ => True) (withObj fun w a m' hw e => ?_)
          fun _ _ => mono (ih hit) fun a l hl => by omega
        cases hf : (w.heap p).put it' v' with
        | ok x => rw [hf] at e; cases e; exact ⟨hput w _ _ _ hw hf, trivial⟩
        | panic => rw [hf] at e; cases e
        | hang => rw [hf] at e; cases e

theorem forN {body : Nat → Prog T (Option β)} {c : Nat} (n i0 : Nat)
    (hb : ∀ i, i0 ≤ i → i < i0 + n → Tally I I (body i) (fun a l => l = c ∧ a = none)) :
    Tally I I (Prog.forN n i0 body) (fun a l => l = n * c ∧ a = none) := by
  induction n generalizing i0 with
  | zero => exact pure ⟨by simp, rfl⟩
  | succ n ih =>
    refine bind (hb i0 (Nat.le_refl _) (by omega)) ?_
    rintro _ l ⟨rfl, rfl⟩
    refine mono (ih (i0 + 1) fun i h1 h2 => hb i (by omega) (by omega)) fun a l' hl => ⟨?_, hl.2⟩
    rw [hl.1, Nat.succ_mul]; omega

theorem dot {rows column : Vec T} (n l : Nat) (s : T) :
    Tally I I (Prog.dot rows column n l s) (fun a k => k = n ∧ a ≠ none) := by
  induction n generalizing l s with
  | zero => exact pure ⟨rfl, by simp⟩
  | succ n ih =>
    exact look (seq' (lift _) fun vC => seq' (lift _) fun vR => mono (ih _ _) fun a k h => ⟨by omega, h.2⟩)

end Tally

/-! ## The operators -/

namespace Tally

variable [GoStore T] {w0 : World T} {out : Ref} {mask : Mask}

/-- Nothing has changed. -/
abbrev At (w0 : World T) (w : World T) : Prop := w.heap = w0.heap ∧ w.reg = w0.reg

/-- Nothing but `out` has changed. -/
abbrev Off (w0 : World T) (out : Ref) (w : World T) : Prop := ∀ q, q ≠ out → w.heap q = w0.heap q

theorem rowsOf (p : Ref) : Tally (At w0) (At w0) (Prog.rowsOf p) (fun a n => n = 0 ∧ a = (w0.heap p).rows) :=
  ofObj fun w a hw e => by cases e; rw [hw.1]

theorem colsOf (p : Ref) : Tally (At w0) (At w0) (Prog.colsOf p) (fun a n => n = 0 ∧ a = (w0.heap p).cols) :=
  ofObj fun w a hw e => by cases e; rw [hw.1]

theorem isSparse (p : Ref) :
    Tally (At w0) (At w0) (Prog.isSparse p) (fun a n => n = 0 ∧ a = decide ((w0.heap p).typeName ∈ w0.reg)) := by
  refine seq (ofObj (Q := fun n => n = (w0.heap p).typeName) fun w a hw e => by cases e; rw [hw.1]) ?_
  rintro _ rfl w a w' hw hc e
  cases e
  exact ⟨hw, rfl, by rw [hw.2]⟩

/-- The mask is in a state a program can bring about. -/
abbrev MaskInv (w0 : World T) (mask : Mask) : Prop := Calm.MaskInv w0 mask

theorem Off.read {w : World T} (hw : Off w0 out w) {p : Ref} {m' : Mat T} (h : (w0.heap p).Inv)
    (hr : (w.heap p).Inv → m' = w.heap p) : Off w0 out { w with heap := Function.update w.heap p m' } := by
  intro q hq
  by_cases hp : p = out
  · subst hp; simpa [hq] using hw q hq
  · rw [hr (by rw [hw p hp]; exact h), Function.update_eq_self]; exact hw q hq

theorem Off.write {w : World T} (hw : Off w0 out w) {m' : Mat T} :
    Off w0 out { w with heap := Function.update w.heap out m' } := by
  intro q hq; simpa [hq] using hw q hq

theorem at' {p : Ref} (hp : (w0.heap p).Inv) (r c : Nat) :
    Tally (Off w0 out) (Off w0 out) (Prog.at' p r c) (fun _ n => n = 0) :=
  mono (withObj (Q := fun _ => True) fun _ _ _ hw e => ⟨Off.read hw hp fun h => (h.reads_preserve _ _).1 _ _ e, trivial⟩)
    fun _ _ h => h.1

theorem element (hk : MaskInv w0 mask) (r c : Nat) :
    Tally (Off w0 out) (Off w0 out) (Prog.element mask r c) (fun _ n => n = 0) := by
  cases mask with
  | nil => exact fail
  | empty _ _ => exact pure rfl
  | given _ _ el =>
    cases h : el r c with
    | none => simp only [Prog.element, h]; exact fail
    | some b => simp only [Prog.element, h]; exact pure rfl
  | ref p =>
    exact mono (withObj (Q := fun _ => True) fun _ _ _ hw e =>
      ⟨Off.read hw (hk p rfl) fun h => (h.reads_preserve _ _).2 _ _ e, trivial⟩) fun _ _ h => h.1

theorem onOut (f : Mat T → Out (β × Mat T)) : Tally (Off w0 out) (Off w0 out) (Prog.withObj out f) (fun _ n => n = 0) :=
  mono (withObj (Q := fun _ => True) fun _ _ _ hw _ => ⟨Off.write hw, trivial⟩) fun _ _ h => h.1

theorem masked {γ : Type} (hk : MaskInv w0 mask) (r c : Nat) {x : Prog T Unit}
    (hx : Tally (Off w0 out) (Off w0 out) x (fun _ n => n = 0)) :
    Tally (Off w0 out) (Off w0 out)
      (do let e ← Prog.element mask r c
          if !e then x
          Pure.pure (none : Option γ)) (fun a n => n = 0 ∧ a = none) :=
  seq' (element hk r c) fun _ => ite (seq' hx fun _ => pure ⟨rfl, rfl⟩) (pure ⟨rfl, rfl⟩)

/-- The iterator over an object that is not written. -/
theorem turn_off {p : Ref} (hp : (w0.heap p).Inv) (hne : p ≠ out) :
    Turn (Off w0 out) p (w0.heap p).nvalues (w0.heap p).iter := by
  have key : ∀ n it, Mat.Turns (w0.heap p) it n → Turn (Off w0 out) p n it := by
    intro n
    induction n with
    | zero => intro it h; exact h.zero
    | succ n ih =>
      intro it h
      obtain ⟨h1, it1, e1, h2, -, -, h5, -⟩ := h.succ
      refine ⟨h1, fun w it' e hw hs => ?_⟩
      rw [hw p hne, h2] at hs
      cases hs
      exact ih _ h5
  exact key _ _ hp.turns

/-- The iterators of the dense formats and of the sparse vector count for themselves. -/
theorem turn_self (I : World T → Prop) {p : Ref} {m : Mat T} (hk : m.kind ≠ .csr ∧ m.kind ≠ .csc) :
    Turn I p m.nvalues m.iter := by
  cases m with
  | csr s => simp [Mat.kind] at hk
  | csc s => simp [Mat.kind] at hk
  | dense s =>
    have key : ∀ n (it : Dense.Iter), it.last + n = it.size → Turn I p n (.dense it) := by
      intro n
      induction n with
      | zero => intro it h; simp [Turn, Mat.Iter.hasNext, Dense.Iter.hasNext]; omega
      | succ n ih =>
        intro it h
        refine ⟨by simp [Mat.Iter.hasNext, Dense.Iter.hasNext]; omega, fun w it' e _ hs => ?_⟩
        cases hm : w.heap p with
        | dense s' =>
          rw [hm] at hs
          simp only [Mat.step, Dense.step] at hs
          cases hv : s'.at' (s'.next it).r (s'.next it).cOld with
          | ok v =>
            simp [hv] at hs
            obtain ⟨rfl, -⟩ := hs
            refine ih _ ?_
            unfold Dense.next
            dsimp only
            split
            · show it.last + 1 + n = it.size; omega
            · show it.last + 1 + n = it.size; omega
          | panic => simp [hv] at hs
          | hang => simp [hv] at hs
        | _ => rw [hm] at hs; cases hs
    exact key _ _ (by simp [Dense.iter, Mat.nvalues])
  | dvec s =>
    have key : ∀ n (it : DVec.Iter), it.last + n = it.size → Turn I p n (.dvec it) := by
      intro n
      induction n with
      | zero => intro it h; simp [Turn, Mat.Iter.hasNext, DVec.Iter.hasNext]; omega
      | succ n ih =>
        intro it h
        refine ⟨by simp [Mat.Iter.hasNext, DVec.Iter.hasNext]; omega, fun w it' e _ hs => ?_⟩
        cases hm : w.heap p with
        | dvec s' =>
          rw [hm] at hs
          simp only [Mat.step, DVec.step] at hs
          cases hv : s'.atVec (s'.next it).rOld with
          | ok v =>
            simp [hv] at hs
            obtain ⟨rfl, -⟩ := hs
            refine ih _ ?_
            unfold DVec.next
            dsimp only
            split
            · show it.last + 1 + n = it.size; omega
            · show it.last + 1 + n = it.size; omega
          | panic => simp [hv] at hs
          | hang => simp [hv] at hs
        | _ => rw [hm] at hs; cases hs
    exact key _ _ (by simp [DVec.iter, Mat.nvalues])
  | svec s =>
    have key : ∀ n (it : SVec.Iter), it.last + n = it.size → Turn I p n (.svec it) := by
      intro n
      induction n with
      | zero => intro it h; simp [Turn, Mat.Iter.hasNext, SVec.Iter.hasNext]; omega
      | succ n ih =>
        intro it h
        refine ⟨by simp [Mat.Iter.hasNext, SVec.Iter.hasNext]; omega, fun w it' e _ hs => ?_⟩
        cases hm : w.heap p with
        | svec s' =>
          rw [hm] at hs
          simp only [Mat.step, SVec.step] at hs
          cases hv : idx s'.indices it.next.old with
          | ok i =>
            cases hv' : idx s'.values it.next.old with
            | ok v =>
              simp [hv, hv'] at hs
              obtain ⟨rfl, -⟩ := hs
              refine ih _ ?_
              simp [SVec.Iter.next]; omega
            | panic => simp [hv, hv'] at hs
            | hang => simp [hv, hv'] at hs
          | panic => simp [hv] at hs
          | hang => simp [hv] at hs
        | _ => rw [hm] at hs; cases hs
    exact key _ _ (by simp [SVec.iter, Mat.nvalues])

/-- The object can be enumerated while `out` is written. -/
abbrev Countable (w0 : World T) (out p : Ref) : Prop :=
  (w0.heap p).Inv ∧ (p = out → (w0.heap p).kind ≠ .csr ∧ (w0.heap p).kind ≠ .csc)

theorem turn {p : Ref} (h : Countable w0 out p) : Turn (Off w0 out) p (w0.heap p).nvalues (w0.heap p).iter := by
  by_cases hp : p = out
  · exact turn_self _ (h.2 hp)
  · exact turn_off h.1 hp

theorem iterOf (p : Ref) (h : p ≠ out ∨ I = At w0) (hI : ∀ w, I w → Off w0 out w) :
    Tally I (Off w0 out) (Prog.iterOf p) (fun it n => n = 0 ∧ it = (w0.heap p).iter) := by
  refine weaken (ofObj fun w a hw e => ?_) (fun _ h => h) hI
  cases e
  rcases h with h | rfl
  · rw [hI w hw p h]
  · rw [hw.1]

theorem at_off : ∀ w, At w0 w → Off w0 out w := fun _ h _ _ => by rw [h.1]

theorem forEach {γ : Type} {g : Nat} {p : Ref} {oc : γ} {body : Nat → Nat → T → Prog T (Option γ)} (hp : Countable w0 out p)
    (hb : ∀ r c v, Tally (Off w0 out) (Off w0 out) (body r c v) (fun a n => n = 0 ∧ a = none)) :
    Tally (At w0) (Off w0 out) (Prog.forEach g p (some oc) body) (fun a n => n = (w0.heap p).nvalues ∧ a = none) := by
  refine seq (iterOf (out := out) p (.inr rfl) at_off) ?_
  rintro _ rfl
  exact loopIter hb g (turn hp)

theorem forEach_off {γ : Type} {g : Nat} {p : Ref} {oc : γ} {body : Nat → Nat → T → Prog T (Option γ)}
    (hp : Countable w0 out p) (hne : p ≠ out)
    (hb : ∀ r c v, Tally (Off w0 out) (Off w0 out) (body r c v) (fun a n => n = 0 ∧ a = none)) :
    Tally (Off w0 out) (Off w0 out) (Prog.forEach g p (some oc) body) (fun a n => n = (w0.heap p).nvalues ∧ a = none) := by
  refine seq (iterOf p (.inl hne) fun _ h => h) ?_
  rintro _ rfl
  exact loopIter hb g (turn hp)

theorem forMap {g : Nat} {f : Nat → Nat → T → Prog T T} (hp : Countable w0 out out)
    (hb : ∀ r c v, Tally (Off w0 out) (Off w0 out) (f r c v) (fun _ n => n = 0)) :
    Tally (At w0) (Off w0 out) (Prog.forMap g out true f) (fun _ n => n = (w0.heap out).nvalues) := by
  refine seq (iterOf (out := out) out (.inr rfl) at_off) ?_
  rintro _ rfl
  exact loopMap hb (fun w m' it v hw _ => Off.write hw) g (turn hp)

theorem pre {J : World T → Prop} {P : Unit → Nat → Prop} (hk : MaskInv w0 mask) {f : Mask → Prog T Unit}
    (hf : ∀ mk, MaskInv w0 mk → Tally (At w0) J (f mk) P) :
    Tally (At w0) J (do let mk ← Prog.orEmpty mask out; Prog.check mk out; f mk) P := by
  have h1 : ∀ mk : Mask, Tally (At w0) (At w0) (Prog.maskRows mk) (fun _ n => n = 0) := by
    rintro (_ | _ | p | _)
    · exact fail
    · exact pure rfl
    · exact mono (rowsOf p) fun _ _ h => h.1
    · exact pure rfl
  have h2 : ∀ mk : Mask, Tally (At w0) (At w0) (Prog.maskCols mk) (fun _ n => n = 0) := by
    rintro (_ | _ | p | _)
    · exact fail
    · exact pure rfl
    · exact mono (colsOf p) fun _ _ h => h.1
    · exact pure rfl
  have h3 : ∀ mk : Mask, MaskInv w0 mk → Tally (At w0) J (do Prog.check mk out; f mk) P := by
    intro mk hm
    refine seq' (seq' (h1 mk) fun _ => seq (rowsOf out) fun _ _ => guard (seq' (h2 mk) fun _ => seq (colsOf out) fun _ _ =>
      ite fail (pure rfl))) fun _ => hf mk hm
  have hemp : ∀ r c, MaskInv w0 (.empty r c) := fun r c p e => by cases e
  cases mask with
  | nil =>
    show Tally (At w0) J (Prog.rowsOf out >>= fun r => Prog.colsOf out >>= fun c =>
        Prog.check (.empty r c) out >>= fun _ => f (.empty r c)) P
    exact seq (rowsOf out) fun _ _ => seq (colsOf out) fun _ _ => h3 _ (hemp _ _)
  | empty r c => exact h3 _ hk
  | given r c el => exact h3 _ hk
  | ref p => exact h3 _ hk

theorem multiply {s m : Ref} (hs : (w0.heap s).Inv) (ho : (w0.heap out).Inv) (hk : MaskInv w0 mask)
    (h2 : (w0.heap s).rows ≤ (w0.heap out).rows) (h3 : (w0.heap m).cols ≤ (w0.heap out).cols) :
    Tally (At w0) (fun _ => True) (Prog.multiply s m mask out)
      (fun _ n => n = (w0.heap s).rows * ((w0.heap m).cols * (w0.heap s).cols)) := by
  refine seq (rowsOf m) fun _ _ => seq (colsOf s) fun _ _ => guard (pre hk fun mk hk => ?_)
  refine seq (rowsOf s) ?_
  rintro _ rfl
  let S : World T → Prop := fun w => Off w0 out w ∧ (w.heap out).Inv ∧ Mat.Same (w.heap out) (w0.heap out)
  have shape : ∀ {w}, S w → ∀ q, Mat.Same (w.heap q) (w0.heap q) := by
    intro w h q
    by_cases hq : q = out
    · subst hq; exact h.2.2
    · rw [h.1 q hq]; exact Mat.Same.refl _
  have invs : ∀ {w}, S w → ∀ q, (w0.heap q).Inv → (w.heap q).Inv := by
    intro w h q hi
    by_cases hq : q = out
    · subst hq; exact h.2.1
    · rw [h.1 q hq]; exact hi
  have elem : ∀ r c, Tally S S (Prog.element mk r c : Prog T Bool) (fun _ n => n = 0) := by
    intro r c
    cases mk with
    | nil => exact fail
    | empty _ _ => exact pure rfl
    | given _ _ el =>
      cases h : el r c with
      | none => simp only [Prog.element, h]; exact fail
      | some b => simp only [Prog.element, h]; exact pure rfl
    | ref p =>
      refine mono (withObj (Q := fun _ => True) fun w b m' hw e => ?_) fun _ _ h => h.1
      rw [((invs hw p (hk p rfl)).reads_preserve _ _).2 _ _ e, Function.update_eq_self]
      exact ⟨hw, trivial⟩
  have put : ∀ r c v, r < (w0.heap out).rows → c < (w0.heap out).cols →
      Tally S S (Prog.set out r c v : Prog T Unit) (fun _ n => n = 0) := by
    intro r c v hr hc
    refine mono (withObj (Q := fun _ => True) fun w b m' hw e => ?_) fun _ _ h => h.1
    obtain ⟨m1, g1, g2, g3⟩ := hw.2.1.apply_ok (o := Op.set r c v) (by
      rw [hw.2.2.2.1, hw.2.2.2.2]; exact ⟨hr, hc⟩)
    have g1 : (w.heap out).set r c v = .ok m1 := g1
    simp only [g1, Out.ok_bind, Out.ok.injEq, Prod.mk.injEq] at e
    obtain ⟨-, rfl⟩ := e
    exact ⟨⟨Off.write hw.1, by simpa using g2, by simpa using g3.trans hw.2.2⟩, trivial⟩
  have loop : Tally S S (Prog.forN (w0.heap s).rows 0 (fun r => do
      let rows ← Prog.ofObj s (fun x => x.rowsAt r)
      let mc ← Prog.colsOf m
      Prog.forN mc 0 (fun c => do
        let column ← Prog.ofObj m (fun x => x.columnsAt c)
        match ← Prog.dot rows column rows.length 0 0 with
        | none => Pure.pure (some ())
        | some sum => do
          let e ← Prog.element mk r c
          if !e then Prog.set out r c sum
          Pure.pure none)) : Prog T (Option Unit))
      (fun a n => n = (w0.heap s).rows * ((w0.heap m).cols * (w0.heap s).cols) ∧ a = none) := by
    refine forN _ _ fun r _ hr => ?_
    refine seq (ofObj (Q := fun v => v.length = (w0.heap s).cols) fun w v hw e => ?_) fun rows hl => ?_
    · obtain ⟨v', e1, e2, -⟩ := (invs hw s hs).rowsAt_total (i := r) (by rw [(shape hw s).2.1]; omega)
      rw [e1] at e; cases e
      rw [e2, (shape hw s).2.2]
    refine seq (ofObj (Q := fun n => n = (w0.heap m).cols) fun w v hw e => ?_) ?_
    · cases e; exact (shape hw m).2.2
    rintro _ rfl
    refine forN _ _ fun c _ hc => ?_
    refine seq' ofObj' fun column => bind (dot _ _ _) ?_
    rintro (_ | sum) n ⟨rfl, hne⟩
    · exact absurd rfl hne
    · refine mono (seq' (elem r c) fun e => ite (seq' (put r c sum (by omega) (by omega)) fun _ => pure (P := fun a n => n = 0 ∧ a = none) ⟨rfl, rfl⟩)
        (pure ⟨rfl, rfl⟩)) fun a n h => ⟨by rw [h.1, hl]; rfl, h.2⟩
  refine bind (weaken loop (fun w h => ⟨at_off w h, by rw [h.1]; exact ho, by rw [h.1]; exact Mat.Same.refl _⟩)
    (fun _ h => h)) fun a n h => ?_
  exact weaken (pure (by rw [h.1]; rfl)) (fun _ h => h) fun _ _ => trivial

/-- `for …; return`. -/
theorem done {J : World T → Prop} {α : Type} {x : Prog T α} {n : Nat} (h : Tally (At w0) J x (fun _ l => l = n)) :
    Tally (At w0) (fun _ => True) (do let _ ← x; Pure.pure ()) (fun _ l => l = n) :=
  bind (P := fun _ l => l = n) (J := fun _ => True) (weaken h (fun _ h => h) fun _ _ => trivial) fun _ _ h => pure h

theorem elementWiseMultiply {g : Nat} {s m : Ref} (hk : MaskInv w0 mask) (hs : Countable w0 out s)
    (hm : Countable w0 out m) :
    Tally (At w0) (fun _ => True) (Prog.elementWiseMultiply g s m mask out)
      (fun _ n => n = if m = out then (w0.heap s).nvalues else if s = out then (w0.heap m).nvalues else
        if decide ((w0.heap s).typeName ∈ w0.reg) = true then (w0.heap s).nvalues else (w0.heap m).nvalues) := by
  refine pre hk fun mk hk => ?_
  have h1 : ∀ r c (v : T), Tally (Off w0 out) (Off w0 out) (Prog.eMulSetSource out mk r c v) (fun _ n => n = 0) :=
    fun r c v => seq' (element hk r c) fun _ => ite (onOut _) (pure rfl)
  have h2 : ∀ {src : Ref}, (w0.heap src).Inv → ∀ r c (v : T),
      Tally (Off w0 out) (Off w0 out) (Prog.eMulTarget src out mk r c v) (fun _ n => n = 0) :=
    fun hsrc r c v => seq' (at' hsrc r c) fun _ => ite (seq' (element hk r c) fun _ => ite (onOut _) (pure rfl)) (pure rfl)
  have hrun : ∀ {over : Ref} {t : Nat → Nat → T → Prog T Unit}, Countable w0 out over →
      (∀ r c v, Tally (Off w0 out) (Off w0 out) (t r c v) (fun _ n => n = 0)) → Tally (At w0) (fun _ => True)
      (do let _ ← Prog.forEach g over (some ()) (fun r c v => do t r c v; Pure.pure none); Pure.pure ())
      (fun _ n => n = (w0.heap over).nvalues) := fun ho ht =>
    done (mono (forEach ho fun r c v => seq' (ht r c v) fun _ => pure ⟨rfl, rfl⟩) fun _ _ h => h.1)
  dsimp only
  by_cases e1 : m = out
  · simp only [if_pos e1]; rw [e1]; exact hrun hs h1
  by_cases e2 : s = out
  · simp only [if_neg e1, if_pos e2]; rw [e2]; exact hrun hm h1
  simp only [if_neg e1, if_neg e2]
  refine seq (isSparse s) ?_
  rintro _ rfl
  split
  · exact hrun hs (h2 hm.1)
  · exact hrun hm (h2 hs.1)

theorem add {g : Nat} {s m : Ref} (hk : MaskInv w0 mask) (hs : Countable w0 out s) (hm : Countable w0 out m) :
    Tally (At w0) (fun _ => True) (Prog.add g s m mask out)
      (fun _ n => n = if decide ((w0.heap s).typeName ∈ w0.reg) = true then (w0.heap s).nvalues else (w0.heap m).nvalues) := by
  refine seq (colsOf s) fun _ _ => seq (colsOf m) fun _ _ => guard ?_
  refine seq (rowsOf s) fun _ _ => seq (rowsOf m) fun _ _ => guard (pre hk fun mk hk => ?_)
  refine seq (isSparse s) fun sp hsp => ?_
  rw [← hsp]
  cases sp
  · exact done (mono (forEach hm fun r c v => seq' (at' hs.1 r c) fun _ => masked hk r c (onOut _)) fun _ _ h => h.1)
  · exact done (mono (forEach hs fun r c v => seq' (at' hm.1 r c) fun _ => masked hk r c (onOut _)) fun _ _ h => h.1)

theorem elementWiseAdd {g : Nat} {s m : Ref} (hk : MaskInv w0 mask) (hs : Countable w0 out s) (hm : Countable w0 out m) :
    Tally (At w0) (fun _ => True) (Prog.elementWiseAdd g s m mask out)
      (fun _ n => n = (if s = out then 0 else (w0.heap s).nvalues) + if m = out then 0 else (w0.heap m).nvalues) := by
  refine pre hk fun mk hk => ?_
  have body : ∀ r c (v : T), Tally (Off w0 out) (Off w0 out) (do
      if !isZero v then do
        let e ← Prog.element mk r c
        if !e then Prog.set out r c v
      Pure.pure (none : Option Unit)) (fun a n => n = 0 ∧ a = none) := fun r c v =>
    ite (masked hk r c (onOut _)) (pure ⟨rfl, rfl⟩)
  have second : Tally (Off w0 out) (fun _ => True)
      (if m ≠ out then do let _ ← Prog.eAddLoop g m mk out; Pure.pure () else Pure.pure () : Prog T Unit)
      (fun _ n => n = if m = out then 0 else (w0.heap m).nvalues) := by
    by_cases e : m = out
    · simp only [e, ne_eq, not_true, if_false, if_true]
      exact weaken (pure rfl) (fun _ h => h) fun _ _ => trivial
    · simp only [ne_eq, e, not_false_iff, if_true, if_false]
      exact bind (P := fun _ n => n = (w0.heap m).nvalues) (J := fun _ => True)
        (weaken (mono (forEach_off hm e body) fun _ _ h => h.1) (fun _ h => h) fun _ _ => trivial) fun _ _ h => pure h
  by_cases e : s = out
  · simp only [e, ne_eq, not_true, if_false, if_true, Nat.zero_add]
    exact weaken second at_off fun _ h => h
  · simp only [ne_eq, e, not_false_iff, if_true, if_false]
    refine bind (forEach hs body) ?_
    rintro _ n ⟨rfl, rfl⟩
    exact mono second fun _ _ h => by rw [h]

theorem subtract {g : Nat} {s m : Ref} (hk : MaskInv w0 mask) (hs : Countable w0 out s) :
    Tally (At w0) (fun _ => True) (Prog.subtract g s m mask out) (fun _ n => n = (w0.heap s).nvalues) := by
  refine seq (colsOf s) fun _ _ => seq (colsOf m) fun _ _ => guard ?_
  refine seq (rowsOf s) fun _ _ => seq (rowsOf m) fun _ _ => guard (pre hk fun mk hk => ?_)
  exact done (mono (forEach hs fun r c _ => masked hk r c (onOut _)) fun _ _ h => h.1)

theorem apply {g : Nat} {s : Ref} {u : T → T} (hk : MaskInv w0 mask) (hs : Countable w0 out s) :
    Tally (At w0) (fun _ => True) (Prog.apply g s mask u out) (fun _ n => n = (w0.heap s).nvalues) := by
  refine pre hk fun mk hk => ?_
  split
  · next h =>
    subst h
    exact done (forMap hs fun r c _ => seq' (element hk r c) fun _ => ite (pure rfl) (pure rfl))
  · exact done (mono (forEach hs fun r c _ => masked hk r c (onOut _)) fun _ _ h => h.1)

theorem negative {g : Nat} (hk : MaskInv w0 mask) (ho : Countable w0 out out) :
    Tally (At w0) (fun _ => True) (Prog.negative g mask out) (fun _ n => n = (w0.heap out).nvalues) :=
  pre hk fun _ hk => done (forMap ho fun r c _ => seq' (element hk r c) fun _ => ite (pure rfl) (pure rfl))

theorem transpose {g : Nat} {s : Ref} (hk : MaskInv w0 mask) (hs : Countable w0 out s) :
    Tally (At w0) (fun _ => True) (Prog.transpose g s mask out) (fun _ n => n = (w0.heap s).nvalues) :=
  pre hk fun _ hk => done (mono (forEach hs fun r c _ => masked hk r c (onOut _)) fun _ _ h => h.1)

/-- How often an operator that returns looks at its context. -/
theorem steps (g : Nat) (op : OpCall T) (hop : ∀ q ∈ op.operands, (w0.heap q).Inv) (ho : (w0.heap out).Inv)
    (hk : MaskInv w0 mask) (hf : op.Room w0 out) :
    Tally (At w0) (fun _ => True) (op.steps g mask out) (fun _ n => n = op.work w0 out) := by
  have gm : ∀ {s m : Ref} {x : Prog T Unit} {n : Nat}, Tally (At w0) (fun _ => True) x (fun _ l => l = n) →
      Tally (At w0) (fun _ => True) (Prog.guardMatrix s m x) (fun _ l => l = n) := fun hx =>
    seq (rowsOf _) fun _ _ => seq (colsOf _) fun _ _ => guard hx
  have gv : ∀ {s m : Ref} {x : Prog T Unit} {n : Nat}, Tally (At w0) (fun _ => True) x (fun _ l => l = n) →
      Tally (At w0) (fun _ => True) (Prog.guardVector s m x) (fun _ l => l = n) := fun hx =>
    seq (rowsOf _) fun _ _ => seq (rowsOf _) fun _ _ => guard hx
  have use : ∀ q ∈ op.operands, (match op with | .mxm .. | .mxv .. | .vxm .. => False | _ => True) → Countable w0 out q := by
    intro q hq hm
    refine ⟨hop q hq, fun e => ?_⟩
    subst e
    cases op <;> first | exact hm.elim | exact hf (.inl hq)
  cases op with
  | mxm s m => exact multiply (hop s (by simp [OpCall.operands])) ho hk hf.1 hf.2
  | mxv s m => exact multiply (hop s (by simp [OpCall.operands])) ho hk hf.1 hf.2
  | vxm s m => exact multiply (hop m (by simp [OpCall.operands])) ho hk hf.1 hf.2
  | add s m =>
    exact mono (add hk (use s (by simp [OpCall.operands]) trivial) (use m (by simp [OpCall.operands]) trivial))
      fun _ _ h => by simpa [OpCall.work] using h
  | subtract s m => exact subtract hk (use s (by simp [OpCall.operands]) trivial)
  | eMulMatrix s m =>
    exact gm (mono (elementWiseMultiply hk (use s (by simp [OpCall.operands]) trivial) (use m (by simp [OpCall.operands]) trivial))
      fun _ _ h => by simpa [OpCall.work] using h)
  | eMulVector s m =>
    exact gv (mono (elementWiseMultiply hk (use s (by simp [OpCall.operands]) trivial) (use m (by simp [OpCall.operands]) trivial))
      fun _ _ h => by simpa [OpCall.work] using h)
  | eAddMatrix s m =>
    exact gm (elementWiseAdd hk (use s (by simp [OpCall.operands]) trivial) (use m (by simp [OpCall.operands]) trivial))
  | eAddVector s m =>
    exact gv (elementWiseAdd hk (use s (by simp [OpCall.operands]) trivial) (use m (by simp [OpCall.operands]) trivial))
  | apply s u => exact apply hk (use s (by simp [OpCall.operands]) trivial)
  | negative s => exact negative hk ⟨ho, fun _ => hf (.inr trivial)⟩
  | transpose s => exact transpose hk (use s (by simp [OpCall.operands]) trivial)

end Tally
end Prog
end GB
