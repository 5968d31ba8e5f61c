import Verif.Lemmas.DimsOps
import Verif.Lemmas.MutexCSC

/-!
# Goroutines that share objects keep what every method keeps
-/

namespace GB

set_option linter.unusedSectionVars false

variable {T : Type} [GoNum T] {α β : Type} {R : Mat T → Mat T → Prop}

namespace Prog

/-- Every method call of the program keeps `R`. -/
inductive Keeps (R : Mat T → Mat T → Prop) {α : Type} : Prog T α → Prop
  | ret (a : α) : Keeps R (ret a)
  | fail : Keeps R fail
  | hang : Keeps R hang
  | poll {k} : (∀ b, Keeps R (k b)) → Keeps R (poll k)
  | names {k} : (∀ b, Keeps R (k b)) → Keeps R (names k)
  | call {β : Type} {p : Ref} {f : Mat T → Out (β × Mat T)} {k} : (∀ m, (f m).Post (fun x => R m x.2)) →
      (∀ b, Keeps R (k b)) → Keeps R (call p f k)

namespace Keeps

theorem pure' (a : α) : Keeps R (pure a : Prog T α) := .ret a

theorem bind {x : Prog T α} {f : α → Prog T β} (hx : Keeps R x) (hf : ∀ a, Keeps R (f a)) : Keeps R (x >>= f) := by
  show Keeps R (Prog.bind' x f)
  induction hx with
  | ret a => exact hf a
  | fail => exact .fail
  | hang => exact .hang
  | poll _ ih => exact .poll ih
  | names _ ih => exact .names ih
  | call hp _ ih => exact .call hp ih

theorem ite {c : Prop} [Decidable c] {x y : Prog T α} (hx : Keeps R x) (hy : Keeps R y) :
    Keeps R (if c then x else y) := by split <;> assumption

theorem withObj (p : Ref) {f : Mat T → Out (α × Mat T)} (hf : ∀ m, (f m).Post (fun x => R m x.2)) :
    Keeps R (Prog.withObj p f) := .call hf .ret

theorem ofObj (hR : Closed R) (p : Ref) (f : Mat T → Out α) : Keeps R (Prog.ofObj p f) :=
  .call (fun m => .next fun _ => .ok (hR.refl m)) .ret

theorem lift (x : Out α) : Keeps R (Prog.lift x : Prog T α) := by
  cases x with
  | ok a => exact .ret a
  | panic => exact .fail
  | hang => exact .hang

theorem pollRet : Keeps R (Prog.poll Prog.ret : Prog T Bool) := .poll .ret
theorem rowsOf (hR : Closed R) (p : Ref) : Keeps R (Prog.rowsOf p) := ofObj hR p _
theorem colsOf (hR : Closed R) (p : Ref) : Keeps R (Prog.colsOf p) := ofObj hR p _
theorem iterOf (hR : Closed R) (p : Ref) : Keeps R (Prog.iterOf p) := ofObj hR p _
theorem isSparse (hR : Closed R) (p : Ref) : Keeps R (Prog.isSparse p) := bind (ofObj hR p _) fun _ => .names fun _ => .ret _
theorem at' (hR : Closed R) (p : Ref) (r c : Nat) : Keeps R (Prog.at' p r c) := withObj p fun m => hR.at' m r c
theorem set (hR : Closed R) (p : Ref) (r c : Nat) (v : T) : Keeps R (Prog.set p r c v) :=
  withObj p fun m => .bind (hR.set m r c v) fun _ h => .ok h
theorem update (hR : Closed R) (p : Ref) (r c : Nat) (f : T → T) : Keeps R (Prog.update p r c f) :=
  withObj p fun m => .bind (hR.update m r c f) fun _ h => .ok h

theorem loopIter (hR : Closed R) (p : Ref) (onCancel : Option β) {body : Nat → Nat → T → Prog T (Option β)}
    (hb : ∀ r c v, Keeps R (body r c v)) : ∀ g it, Keeps R (Prog.loopIter p onCancel body g it)
  | 0, it => by unfold Prog.loopIter; exact ite .hang (pure' _)
  | g + 1, it => by
    unfold Prog.loopIter
    refine ite (bind pollRet fun _ => ite ?_ ?_) (pure' _)
    · cases onCancel with
      | some b => exact pure' _
      | none => exact loopIter hR p _ hb g it
    · refine bind (ofObj hR p _) fun ⟨it', r, c, v⟩ => bind (hb r c v) fun o => ?_
      cases o with
      | some b => exact pure' _
      | none => exact loopIter hR p _ hb g it'

theorem forEach (hR : Closed R) (g : Nat) (p : Ref) (onCancel : Option β) {body : Nat → Nat → T → Prog T (Option β)}
    (hb : ∀ r c v, Keeps R (body r c v)) : Keeps R (Prog.forEach g p onCancel body) :=
  bind (iterOf hR p) fun it => loopIter hR p onCancel hb g it

theorem loopMap (hR : Closed R) (p : Ref) (onCancel : Bool) {f : Nat → Nat → T → Prog T T}
    (hf : ∀ r c v, Keeps R (f r c v)) : ∀ g it, Keeps R (Prog.loopMap p onCancel f g it)
  | 0, it => by unfold Prog.loopMap; exact ite .hang (pure' _)
  | g + 1, it => by
    unfold Prog.loopMap
    refine ite (bind pollRet fun _ => ite (ite (pure' _) (loopMap hR p _ hf g it)) ?_) (pure' _)
    exact bind (ofObj hR p _) fun ⟨it', r, c, v⟩ => bind (hf r c v) fun v' =>
      bind (withObj p fun m => .bind (hR.put m it' v') fun _ h => .ok h) fun _ => loopMap hR p _ hf g it'

theorem forMap (hR : Closed R) (g : Nat) (p : Ref) (onCancel : Bool) {f : Nat → Nat → T → Prog T T}
    (hf : ∀ r c v, Keeps R (f r c v)) : Keeps R (Prog.forMap g p onCancel f) :=
  bind (iterOf hR p) fun it => loopMap hR p onCancel hf g it

theorem forN {body : Nat → Prog T (Option β)} (hb : ∀ i, Keeps R (body i)) : ∀ n i, Keeps R (Prog.forN n i body)
  | 0, i => pure' _
  | n + 1, i => by
    unfold Prog.forN
    refine bind (hb i) fun o => ?_
    cases o with
    | some b => exact pure' _
    | none => exact forN hb n (i + 1)

theorem orEmpty (hR : Closed R) (mask : Mask) (p : Ref) : Keeps R (Prog.orEmpty mask p) := by
  cases mask with
  | nil => exact bind (rowsOf hR _) fun _ => bind (colsOf hR _) fun _ => pure' _
  | empty r c => exact pure' _
  | ref q => exact pure' _
  | given r c el => exact pure' _

theorem maskRows (hR : Closed R) (mask : Mask) : Keeps R (Prog.maskRows mask) := by
  cases mask with
  | nil => exact .fail
  | empty r c => exact pure' _
  | ref q => exact rowsOf hR _
  | given r c el => exact pure' _

theorem maskCols (hR : Closed R) (mask : Mask) : Keeps R (Prog.maskCols mask) := by
  cases mask with
  | nil => exact .fail
  | empty r c => exact pure' _
  | ref q => exact colsOf hR _
  | given r c el => exact pure' _

theorem element (hR : Closed R) (mask : Mask) (r c : Nat) : Keeps R (Prog.element mask r c) := by
  cases mask with
  | nil => exact .fail
  | empty r c => exact pure' _
  | ref q => exact withObj q fun m => hR.element m r c
  | given _ _ el =>
    cases h : el r c with
    | none => simp only [Prog.element, h]; exact .fail
    | some b => simp only [Prog.element, h]; exact pure' _

/-- Apply the rules as long as one fits. -/
macro "keeps" hR:ident : tactic => `(tactic| repeat' first
  | assumption
  | exact pure' _ | exact Keeps.fail | exact Keeps.hang | exact rowsOf $hR _ | exact colsOf $hR _
  | exact iterOf $hR _ | exact isSparse $hR _ | exact ofObj $hR _ _ | exact lift _ | exact pollRet
  | exact at' $hR _ _ _ | exact set $hR _ _ _ _ | exact update $hR _ _ _ _
  | exact orEmpty $hR _ _ | exact maskRows $hR _ | exact maskCols $hR _ | exact element $hR _ _ _
  | refine forEach $hR _ _ _ ?_ | refine forMap $hR _ _ _ ?_ | refine forN ?_ _ _
  | with_reducible refine bind ?_ ?_
  | intro _
  | split
  | dsimp only)

theorem check (hR : Closed R) (mask : Mask) (p : Ref) : Keeps R (Prog.check mask p) := by
  unfold Prog.check
  keeps hR

theorem dot (rows column : Vec T) : ∀ n l sum, Keeps R (Prog.dot rows column n l sum)
  | 0, _, _ => pure' _
  | n + 1, l, sum => by
    have ih := fun s => dot rows column n (l + 1) s
    unfold Prog.dot
    exact bind pollRet fun _ => ite (pure' _) (bind (lift _) fun _ => bind (lift _) fun _ => ih _)

theorem multiply (hR : Closed R) (s m : Ref) (mask : Mask) (out : Ref) : Keeps R (Prog.multiply s m mask out) := by
  unfold Prog.multiply
  keeps hR
  all_goals first | exact check hR _ _ | exact dot _ _ _ _ _

theorem eMulTarget (hR : Closed R) (source matrix : Ref) (mask : Mask) (r c : Nat) (v : T) :
    Keeps R (Prog.eMulTarget source matrix mask r c v) := by
  unfold Prog.eMulTarget
  keeps hR

theorem eMulSetSource (hR : Closed R) (source : Ref) (mask : Mask) (r c : Nat) (v : T) :
    Keeps R (Prog.eMulSetSource source mask r c v) := by
  unfold Prog.eMulSetSource
  keeps hR

theorem elementWiseMultiply (hR : Closed R) (g : Nat) (s m : Ref) (mask : Mask) (out : Ref) :
    Keeps R (Prog.elementWiseMultiply g s m mask out) := by
  unfold Prog.elementWiseMultiply
  keeps hR
  all_goals first | exact check hR _ _ | exact eMulTarget hR _ _ _ _ _ _ | exact eMulSetSource hR _ _ _ _ _

theorem add (hR : Closed R) (g : Nat) (s m : Ref) (mask : Mask) (out : Ref) : Keeps R (Prog.add g s m mask out) := by
  unfold Prog.add
  keeps hR
  all_goals exact check hR _ _

theorem eAddLoop (hR : Closed R) (g : Nat) (src : Ref) (mask : Mask) (out : Ref) :
    Keeps R (Prog.eAddLoop g src mask out) := by
  unfold Prog.eAddLoop
  keeps hR

theorem elementWiseAdd (hR : Closed R) (g : Nat) (s m : Ref) (mask : Mask) (out : Ref) :
    Keeps R (Prog.elementWiseAdd g s m mask out) := by
  unfold Prog.elementWiseAdd
  keeps hR
  all_goals first | exact check hR _ _ | exact eAddLoop hR _ _ _ _

theorem guardMatrix (hR : Closed R) (s m : Ref) {x : Prog T Unit} (hx : Keeps R x) : Keeps R (Prog.guardMatrix s m x) := by
  unfold Prog.guardMatrix
  keeps hR

theorem guardVector (hR : Closed R) (s m : Ref) {x : Prog T Unit} (hx : Keeps R x) : Keeps R (Prog.guardVector s m x) := by
  unfold Prog.guardVector
  keeps hR

theorem subtract (hR : Closed R) (g : Nat) (s m : Ref) (mask : Mask) (out : Ref) :
    Keeps R (Prog.subtract g s m mask out) := by
  unfold Prog.subtract
  keeps hR
  all_goals exact check hR _ _

theorem apply (hR : Closed R) (g : Nat) (s : Ref) (mask : Mask) (u : T → T) (out : Ref) :
    Keeps R (Prog.apply g s mask u out) := by
  unfold Prog.apply
  keeps hR
  all_goals exact check hR _ _

theorem negative (hR : Closed R) (g : Nat) (mask : Mask) (out : Ref) : Keeps R (Prog.negative (T := T) g mask out) := by
  unfold Prog.negative
  keeps hR
  all_goals exact check hR _ _

theorem transpose (hR : Closed R) (g : Nat) (s : Ref) (mask : Mask) (out : Ref) :
    Keeps R (Prog.transpose (T := T) g s mask out) := by
  unfold Prog.transpose
  keeps hR
  all_goals exact check hR _ _

theorem steps (hR : Closed R) (g : Nat) (mask : Mask) (out : Ref) (op : OpCall T) : Keeps R (op.steps g mask out) := by
  cases op with
  | mxm s m => exact multiply hR s m mask out
  | mxv s m => exact multiply hR s m mask out
  | vxm s m => exact multiply hR m s mask out
  | add s m => exact add hR g s m mask out
  | subtract s m => exact subtract hR g s m mask out
  | eMulMatrix s m => exact guardMatrix hR s m (elementWiseMultiply hR g s m mask out)
  | eMulVector s m => exact guardVector hR s m (elementWiseMultiply hR g s m mask out)
  | eAddMatrix s m => exact guardMatrix hR s m (elementWiseAdd hR g s m mask out)
  | eAddVector s m => exact guardVector hR s m (elementWiseAdd hR g s m mask out)
  | apply s u => exact apply hR g s mask u out
  | negative s => exact negative hR g mask out
  | transpose s => exact transpose hR g s mask out

end Keeps
end Prog

/-! ## Several goroutines -/

/-- A goroutine whose remaining calls and whose pending store keep `R`, from the heap `h0` on. -/
def Thread.Keeps (R : Mat T → Mat T → Prop) (h0 : Ref → Mat T) (t : Thread T) : Prop :=
  t.prog.Keeps R ∧ ∀ p m, t.store = some (p, m) → R (h0 p) m

theorem Thread.Keeps.step (hR : Closed R) {reg : List String} {h0 h h' : Ref → Mat T} {t t' : Thread T}
    (ht : t.Keeps R h0) (hh : ∀ p, R (h0 p) (h p)) (hs : t.step reg h = some (h', t')) :
    t'.Keeps R h0 ∧ ∀ p, R (h0 p) (h' p) := by
  obtain ⟨x, st, c⟩ := t
  obtain ⟨hk, hst⟩ := ht
  simp only at hk hst
  cases st with
  | some pm =>
    obtain ⟨p, m⟩ := pm
    simp only [Thread.step, Option.some.injEq, Prod.mk.injEq] at hs
    obtain ⟨rfl, rfl⟩ := hs
    refine ⟨⟨hk, fun _ _ h => by cases h⟩, fun q => ?_⟩
    by_cases e : q = p
    · subst e; rw [Function.update_self]; exact hst q m rfl
    · rw [Function.update_of_ne e]; exact hh q
  | none =>
    cases hk with
    | ret a => cases hs
    | fail => cases hs
    | hang => cases hs
    | poll hk =>
      match c, hs with
      | none, hs => cases hs; exact ⟨⟨hk _, fun _ _ h => by cases h⟩, hh⟩
      | some 0, hs => cases hs; exact ⟨⟨hk _, fun _ _ h => by cases h⟩, hh⟩
      | some (n + 1), hs => cases hs; exact ⟨⟨hk _, fun _ _ h => by cases h⟩, hh⟩
    | names hk => cases hs; exact ⟨⟨hk _, fun _ _ h => by cases h⟩, hh⟩
    | @call β p f k hp hk =>
      simp only [Thread.step] at hs
      cases hf : f (h p) with
      | ok bm =>
        obtain ⟨b, m⟩ := bm
        rw [hf] at hs
        cases hs
        refine ⟨⟨hk _, fun q m' e => ?_⟩, hh⟩
        cases e
        exact hR.trans (hh p) (hp _ _ hf)
      | panic => rw [hf] at hs; cases hs; exact ⟨⟨.fail, fun _ _ h => by cases h⟩, hh⟩
      | hang => rw [hf] at hs; cases hs; exact ⟨⟨.hang, fun _ _ h => by cases h⟩, hh⟩

theorem Conf.Exec.keeps (hR : Closed R) {n : Nat} {reg : List String} {h0 : Ref → Mat T} {k : Nat} {c c' : Conf T n}
    (he : Conf.Exec reg k c c') (hh : ∀ p, R (h0 p) (c.heap p)) (ht : ∀ i, (c.threads i).Keeps R h0) :
    (∀ p, R (h0 p) (c'.heap p)) ∧ ∀ i, (c'.threads i).Keeps R h0 := by
  induction he with
  | nil c => exact ⟨hh, ht⟩
  | snoc _ hs ih =>
    obtain ⟨h1, h2⟩ := ih hh ht
    obtain ⟨i, h, t, hst, rfl⟩ := hs
    obtain ⟨h3, h4⟩ := (h2 i).step hR h1 hst
    refine ⟨h4, fun j => ?_⟩
    by_cases e : j = i
    · subst e; simpa using h3
    · simpa [Function.update_of_ne e] using h2 j

/-! ## `MutexMatrix` -/

namespace Mutex

/-- Every access keeps `R`. -/
inductive Prog.Keeps {S Q : Type} (R : S → S → Prop) : Prog S Q → Prop
  | done (r : Q) : Keeps R (.done r)
  | act {f k} : (∀ s, R s (f s)) → (∀ s, Keeps R (k s)) → Keeps R (.act f k)

/-- The new state of a method called alone. -/
theorem alone_keeps (hR : Closed R) (gas : Nat) (m : Method T) (s : Mat T) : R s (m.alone gas s).2 := by
  have eff : ∀ {α : Type} (val : α → Val T) (x : Out (α × Mat T)), x.Post (fun y => R s y.2) → R s (effect s val x).2 := by
    intro α val x hx
    cases x with
    | ok y => exact hx y rfl
    | panic => exact hR.refl s
    | hang => exact hR.refl s
  have same : ∀ {α : Type} (val : α → Val T) (x : Out α), R s (effect s val (do let v ← x; .ok (v, s))).2 :=
    fun val x => eff val _ (.next fun _ => .ok (hR.refl s))
  have one : ∀ {α : Type} {x : M T α}, Stable R x → R s ((x (World.of gas [s])).world.heap 0) :=
    fun h => (h.out (World.of gas [s])).2.2 0 (by simp [World.of])
  have two : ∀ {α : Type} {x : M T α} (m : Mat T), Stable R x → R s ((x (World.of gas [s, m])).world.heap 0) :=
    fun m h => (h.out (World.of gas [s, m])).2.2 0 (by simp [World.of])
  cases m with
  | columns => exact hR.refl s
  | rows => exact hR.refl s
  | update r c f => exact eff _ _ (.bind (hR.update s r c f) fun _ h => .ok h)
  | at' r c => exact eff _ _ (hR.at' s r c)
  | set r c v => exact eff _ _ (.bind (hR.set s r c v) fun _ h => .ok h)
  | columnsAt c => exact same _ _
  | rowsAt r => exact same _ _
  | rowsAtToArray r => exact same _ _
  | copy => exact same _ _
  | scalar a => exact one (Stable.mScalar hR 0 a)
  | multiply m => exact two m (Stable.mMultiply hR 0 1)
  | add m => exact two m (Stable.mAdd hR 0 1)
  | subtract m => exact two m (Stable.mSubtract hR 0 1)
  | negative => exact one (Stable.mNegative hR 0)
  | transpose => exact one (Stable.mTranspose hR 0)
  | equal m => exact two m (Stable.mEqual hR 0 1)
  | notEqual m => exact two m (Stable.mNotEqual hR 0 1)
  | size => exact hR.refl s
  | values => exact hR.refl s
  | clear => exact hR.clear s
  | enumerate => exact hR.refl s
  | map => exact hR.refl s
  | element r c => exact eff _ _ (hR.element s r c)
  | mapNext it f => exact eff _ _ (.next fun _ => .bind (hR.put s _ _) fun _ h => .ok h)

theorem atomic_keeps (hR : Closed R) (gas : Nat) (m : Method T) : (m.atomic gas).Keeps R :=
  .act (alone_keeps hR gas m) fun _ => .done _

/-- The relation between CSR matrices that the single accesses keep. -/
def KeepCSR (R : Mat T → Mat T → Prop) : Prop := ∀ s x : CSR T, x.r = s.r → x.c = s.c → R (.csr s) (.csr x)

section fine
variable (hR : ∀ s, R s s) (hC : KeepCSR R)
include hR

theorem rdCSR_keeps {get : CSR T → Out α} {k : α → Prog (Mat T) (Out (Val T))} (hk : ∀ a, (k a).Keeps R) :
    (rdCSR get k).Keeps R := by
  refine .act (fun s => hR s) fun s => ?_
  split
  · split
    · exact hk _
    · exact .done _
    · exact .done _
  · exact .done _

include hC

theorem wrCSR_keeps {put : CSR T → Out (CSR T)} {k : Prog (Mat T) (Out (Val T))}
    (hp : ∀ s, (put s).Post (fun x => x.r = s.r ∧ x.c = s.c)) (hk : k.Keeps R) : (wrCSR put k).Keeps R := by
  refine .act (fun s => ?_) fun s => ?_
  · cases s with
    | csr s =>
      cases h : put s with
      | ok x => simp only [h]; exact hC s x (hp s x h).1 (hp s x h).2
      | panic => simp only [h]; exact hR _
      | hang => simp only [h]; exact hR _
    | _ => exact hR _
  · split
    · split
      · exact hk
      · exact .done _
      · exact .done _
    · exact .done _

theorem bumpProg_keeps (f : Nat → Nat) {k : Prog (Mat T) (Out (Val T))} (hk : k.Keeps R) : ∀ n i, (bumpProg f k n i).Keeps R
  | 0, _ => hk
  | n + 1, i => wrCSR_keeps hR hC (fun _ => .next fun _ => .next fun _ => .ok ⟨rfl, rfl⟩) (bumpProg_keeps f hk n (i + 1))

theorem insertProg_keeps (sr p r c : Nat) (v : T) {k : Prog (Mat T) (Out (Val T))} (hk : k.Keeps R) :
    (insertProg sr p r c v k).Keeps R := by
  unfold insertProg
  split
  · exact hk
  · exact wrCSR_keeps hR hC (fun _ => .next fun _ => .ok ⟨rfl, rfl⟩)
      (wrCSR_keeps hR hC (fun _ => .next fun _ => .ok ⟨rfl, rfl⟩) (bumpProg_keeps hR hC _ hk _ _))

theorem removeProg_keeps (sr p r : Nat) {k : Prog (Mat T) (Out (Val T))} (hk : k.Keeps R) :
    (removeProg sr p r k).Keeps R :=
  wrCSR_keeps hR hC (fun _ => .next fun _ => .ok ⟨rfl, rfl⟩)
    (wrCSR_keeps hR hC (fun _ => .next fun _ => .ok ⟨rfl, rfl⟩) (bumpProg_keeps hR hC _ hk _ _))

omit hC in
theorem searchProg_keeps (c : Nat) {k : Nat → Nat → Prog (Mat T) (Out (Val T))} (hk : ∀ a b, (k a b).Keeps R) :
    ∀ fuel s e, (searchProg c k fuel s e).Keeps R
  | 0, s, e => by
    unfold searchProg
    split
    · exact .done _
    · exact hk _ _
  | fuel + 1, s, e => by
    unfold searchProg
    split
    · refine rdCSR_keeps hR fun x => ?_
      split
      · exact searchProg_keeps c hk fuel _ _
      · split
        · exact searchProg_keeps c hk fuel _ _
        · exact hk _ _
    · exact hk _ _

omit hC in
theorem indexProg_keeps (r c : Nat) {k : Nat → Nat → Prog (Mat T) (Out (Val T))} (hk : ∀ a b, (k a b).Keeps R) :
    (indexProg r c k).Keeps R := by
  refine rdCSR_keeps hR fun a => rdCSR_keeps hR fun b => ?_
  split
  · exact hk _ _
  · refine rdCSR_keeps hR fun l => ?_
    split
    · exact hk _ _
    · exact searchProg_keeps hR c hk _ _ _

theorem storeProg_keeps (sr r c : Nat) (f : T → β × T) (val : β → Val T) (a b : Nat) :
    (storeProg sr r c f val a b).Keeps R := by
  unfold storeProg
  dsimp only
  have miss := insertProg_keeps hR hC sr a r c (f 0).2 (k := .done (.ok (val (f 0).1))) (.done _)
  split
  · refine rdCSR_keeps hR fun x => ?_
    split
    · refine rdCSR_keeps hR fun old => ?_
      split
      · exact removeProg_keeps hR hC _ _ _ (.done _)
      · exact wrCSR_keeps hR hC (fun _ => .next fun _ => .ok ⟨rfl, rfl⟩) (.done _)
    · exact miss
  · exact miss

theorem updateProg_keeps (r c : Int) (f : T → β × T) (val : β → Val T) : (updateProg r c f val).Keeps R := by
  refine rdCSR_keeps hR fun x => ?_
  dsimp only
  split
  · split
    · exact indexProg_keeps hR _ _ fun a b => storeProg_keeps hR hC _ _ _ _ _ a b
    · exact .done _
  · exact .done _

theorem clearProg_keeps : (clearProg (T := T)).Keeps R :=
  wrCSR_keeps hR hC (fun _ => .ok ⟨rfl, rfl⟩) (wrCSR_keeps hR hC (fun _ => .ok ⟨rfl, rfl⟩)
    (wrCSR_keeps hR hC (fun _ => .ok ⟨rfl, rfl⟩) (.done _)))

end fine

/-- The relation between CSC matrices that the single accesses keep. -/
def KeepCSC (R : Mat T → Mat T → Prop) : Prop := ∀ s x : CSC T, x.r = s.r → x.c = s.c → R (.csc s) (.csc x)

theorem conj_keeps {Q : Type} {p : Prog (Mat T) Q} (h : p.Keeps (fun a b => R (swap a) (swap b))) : p.conj.Keeps R := by
  induction h with
  | done r => exact .done r
  | act hf _ ih => exact .act (fun s => by have := hf (swap s); rw [swap_swap] at this; exact this) fun s => ih _

/-- The relations between dense matrices and between sparse vectors that the accesses of `Clear` keep. -/
def KeepDense (R : Mat T → Mat T → Prop) : Prop := ∀ s x : Dense T, x.r = s.r → x.c = s.c → R (.dense s) (.dense x)
def KeepSVec (R : Mat T → Mat T → Prop) : Prop := ∀ s x : SVec T, x.l = s.l → R (.svec s) (.svec x)

theorem wrDense_keeps (hR : ∀ s, R s s) (hC : KeepDense R) {put : Dense T → Out (Dense T)}
    {k : Prog (Mat T) (Out (Val T))} (hp : ∀ s, (put s).Post (fun x => x.r = s.r ∧ x.c = s.c)) (hk : k.Keeps R) :
    (wrDense put k).Keeps R := by
  refine .act (fun s => ?_) fun s => ?_
  · cases s with
    | dense s =>
      cases h : put s with
      | ok x => simp only [h]; exact hC s x (hp s x h).1 (hp s x h).2
      | panic => simp only [h]; exact hR _
      | hang => simp only [h]; exact hR _
    | _ => exact hR _
  · split
    · split
      · exact hk
      · exact .done _
      · exact .done _
    · exact .done _

theorem fillProgD_keeps (hR : ∀ s, R s s) (hC : KeepDense R) : ∀ n i, (fillProgD (T := T) n i).Keeps R
  | 0, _ => .done _
  | n + 1, i => wrDense_keeps hR hC (fun _ => .next fun _ => .ok ⟨rfl, rfl⟩) (fillProgD_keeps hR hC n (i + 1))

theorem wrSVec_keeps (hR : ∀ s, R s s) (hC : KeepSVec R) {put : SVec T → SVec T}
    {k : Prog (Mat T) (Out (Val T))} (hp : ∀ s, (put s).l = s.l) (hk : k.Keeps R) : (wrSVec put k).Keeps R := by
  refine .act (fun s => ?_) fun s => ?_
  · cases s with
    | svec s => exact hC _ _ (hp s)
    | _ => exact hR _
  · split
    · exact hk
    · exact .done _

theorem fine_keeps (hR : Closed R) (hC : KeepCSR R) (hC' : KeepCSC R) (hD : KeepDense R) (hV : KeepSVec R) (gas : Nat) (m : Method T) :
    (m.fine gas).Keeps R := by
  have hR' : ∀ s : Mat T, R (swap s) (swap s) := fun s => hR.refl _
  have hS : KeepCSR (fun a b : Mat T => R (swap a) (swap b)) := fun s x h1 h2 => hC' _ _ h2 h1
  have on : ∀ {p q : Prog (Mat T) (Out (Val T))} (m : Method T), p.Keeps R → q.Keeps R → (m.byFormat gas p q).Keeps R := by
    intro p q m hp hq
    refine .act (fun s => hR.refl s) fun s => ?_
    split
    · exact hp
    · exact hq
    · exact atomic_keeps hR gas m
  have up : ∀ {β : Type} (m : Method T) (r c : Int) (f : T → β × T) (val : β → Val T),
      (m.updating gas r c f val).Keeps R := fun m r c f val =>
    on m (updateProg_keeps hR.refl hC _ _ _ _) (by
      rw [updateProg_conj]; exact conj_keeps (updateProg_keeps hR' hS _ _ _ _))
  cases m with
  | at' r c => exact up _ _ _ _ _
  | element r c => exact up _ _ _ _ _
  | set r c v => exact up _ _ _ _ _
  | update r c f => exact up _ _ _ _ _
  | clear =>
    refine .act (fun s => hR.refl s) fun s => ?_
    split
    · exact clearProg_keeps hR.refl hC
    · rw [clearProg_conj]; exact conj_keeps (clearProg_keeps hR' hS)
    · exact wrDense_keeps hR.refl hD (fun _ => .ok ⟨rfl, rfl⟩) (fillProgD_keeps hR.refl hD _ _)
    · exact atomic_keeps hR gas _
    · exact wrSVec_keeps hR.refl hV (fun _ => rfl) (wrSVec_keeps hR.refl hV (fun _ => rfl) (.done _))
  | _ => exact atomic_keeps hR gas _

/-- Whatever is left of a call keeps `R`. -/
def Phase.Keeps {μ S Q : Type} (R : S → S → Prop) : Phase μ S Q → Prop
  | .inside _ p => p.Keeps R
  | _ => True

theorem Steps.keeps {n : Nat} {μ S Q : Type} {R : S → S → Prop} (htr : ∀ {a b c}, R a b → R b c → R a c)
    {mode : μ → Mode} {body : μ → Prog S Q} (hb : ∀ m, (body m).Keeps R) {c c' : Conf n μ S Q}
    (h : Steps mode body c c') {s0 : S} (h0 : R s0 c.mat) (ht : ∀ i, (c.thr i).phase.Keeps R) :
    R s0 c'.mat ∧ ∀ i, (c'.thr i).phase.Keeps R := by
  induction h with
  | refl => exact ⟨h0, ht⟩
  | @tail d e _ hs ih =>
    obtain ⟨h1, h2⟩ := ih
    have upd : ∀ (i : Fin n) (t : Thread μ S Q), t.phase.Keeps R → ∀ j, (Function.update d.thr i t j).phase.Keeps R := by
      intro i t hk j
      by_cases e : j = i
      · subst e; rw [Function.update_self]; exact hk
      · rw [Function.update_of_ne e]; exact h2 j
    cases hs with
    | announce i => exact ⟨h1, upd i _ trivial⟩
    | lock i => exact ⟨h1, upd i _ (hb _)⟩
    | rlock i => exact ⟨h1, upd i _ (hb _)⟩
    | enter i => exact ⟨h1, upd i _ (hb _)⟩
    | act i hi =>
      have hk := h2 i
      rw [hi] at hk
      cases hk with
      | act hf hk => exact ⟨htr h1 (hf _), upd i _ (hk _)⟩
    | @leave i m _ _ _ hi =>
      have e : (d.release (mode m)).mat = d.mat ∧ (d.release (mode m)).thr = d.thr := by
        unfold Conf.release; split <;> exact ⟨rfl, rfl⟩
      refine ⟨by show R s0 (d.release (mode m)).mat; rw [e.1]; exact h1, ?_⟩
      intro j
      show (Function.update (d.release (mode m)).thr i _ j).phase.Keeps R
      rw [e.2]
      exact upd i ⟨_, .idle, _⟩ trivial j

/-- The calls of `m` have returned `v`, and one that is inside will. -/
def Thread.Answers {μ S Q : Type} (body : μ → Prog S Q) (m : μ) (v : Q) (t : Thread μ S Q) : Prop :=
  (∀ p, t.phase = .inside m p → p = body m ∨ p = .done v) ∧ ∀ x, (m, x) ∈ t.res → x = v

theorem Steps.answers {n : Nat} {μ S Q : Type} {R : S → S → Prop} (htr : ∀ {a b c}, R a b → R b c → R a c)
    {mode : μ → Mode} {body : μ → Prog S Q} (hb : ∀ m, (body m).Keeps R) {s0 : S} (h0 : R s0 s0)
    {calls : Fin n → List μ} {c : Conf n μ S Q} (h : Steps mode body (Conf.init s0 calls) c)
    {m : μ} {f : S → S} {g : S → Q} {v : Q} (hm : body m = .act f (fun s => .done (g s)))
    (hg : ∀ s, R s0 s → g s = v) (i : Fin n) : Thread.Answers body m v (c.thr i) := by
  generalize e : (Conf.init s0 calls : Conf n μ S Q) = c0 at h
  induction h generalizing i with
  | refl => subst e; exact ⟨fun p hp => (by cases hp), fun x (hx : (m, x) ∈ []) => by cases hx⟩
  | @tail d d' hd hs ih =>
    subst e
    have hR := (Steps.keeps (R := R) htr hb hd h0 (fun _ => trivial)).1
    have upd : ∀ (j : Fin n) (t : Thread μ S Q), Thread.Answers body m v t → Thread.Answers body m v (Function.update d.thr j t i) := by
      intro j t ht
      by_cases e : i = j
      · subst e; rw [Function.update_self]; exact ht
      · rw [Function.update_of_ne e]; exact ih i
    have fresh : ∀ {m' : μ} {rest : List μ} {res : List (μ × Q)}, (∀ x, (m, x) ∈ res → x = v) →
        Thread.Answers body m v ⟨rest, .inside m' (body m'), res⟩ :=
      fun hres => ⟨fun p hp => (by cases hp; exact .inl rfl), hres⟩
    cases hs with
    | announce j hj => have := ih j; rw [hj] at this; exact upd j _ ⟨fun p hp => (by cases hp), this.2⟩
    | lock j hj => have := ih j; rw [hj] at this; exact upd j _ (fresh this.2)
    | rlock j hj => have := ih j; rw [hj] at this; exact upd j _ (fresh this.2)
    | enter j hj => have := ih j; rw [hj] at this; exact upd j _ (fresh this.2)
    | @act j m' rest res f' k hj =>
      have := ih j
      rw [hj] at this
      refine upd j _ ⟨fun p hp => ?_, this.2⟩
      cases hp
      rcases this.1 _ rfl with h1 | h1
      · rw [hm] at h1
        cases h1
        exact .inr (congrArg Prog.done (hg _ hR))
      · cases h1
    | @leave j m' rest res r hj =>
      have := ih j
      rw [hj] at this
      have e : (d.release (mode m')).thr = d.thr := by unfold Conf.release; split <;> rfl
      show Thread.Answers body m v (Function.update (d.release (mode m')).thr j _ i)
      rw [e]
      refine upd j _ ⟨fun p hp => (by cases hp), fun x hx => ?_⟩
      rcases List.mem_append.1 hx with hx | hx
      · exact this.2 x hx
      · simp only [List.mem_singleton, Prod.mk.injEq] at hx
        obtain ⟨rfl, rfl⟩ := hx
        rcases this.1 _ rfl with h1 | h1
        · rw [hm] at h1; cases h1
        · cases h1; rfl

end Mutex
end GB
