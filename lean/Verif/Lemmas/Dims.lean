import Verif.Model.BFS
import Verif.Model.MathPkg
import Verif.Model.Nil
import Verif.Model.Reduce
import Verif.Model.Reduced
import Verif.Model.Rune
import Verif.Model.Strassen
import Verif.Model.Steps
import Verif.Lemmas.Mat

/-!
# Relations between the old and the new state of an object that every method keeps

`Closed R`: `R` is reflexive, transitive, and holds between the states before and after every call of
a method that writes. `Stable R x`: whatever the outcome of `x`, every object that existed before is
related to what it is afterwards.
-/

namespace GB

set_option linter.unusedSectionVars false

variable {T : Type} [GoNum T] {α β : Type}

/-! ## Outcomes -/

/-- If `x` returns, then something that satisfies `P`. -/
def Out.Post (x : Out α) (P : α → Prop) : Prop := ∀ a, x = .ok a → P a

namespace Out.Post

variable {P : α → Prop} {Q : β → Prop}

theorem ok {a : α} (h : P a) : Out.Post (.ok a) P := by rintro _ ⟨⟩; exact h
theorem panic : Out.Post .panic P := by rintro _ ⟨⟩
theorem hang : Out.Post .hang P := by rintro _ ⟨⟩
theorem any (x : Out α) : Out.Post x (fun _ => True) := fun _ _ => trivial
theorem ite {c : Prop} [Decidable c] {x y : Out α} (hx : x.Post P) (hy : y.Post P) :
    Out.Post (if c then x else y) P := by split <;> assumption
theorem bind {x : Out α} {f : α → Out β} (hx : x.Post P) (hf : ∀ a, P a → (f a).Post Q) : (x >>= f).Post Q := by
  intro b hb
  cases hxe : x with
  | ok a => rw [hxe] at hb; exact hf a (hx a hxe) b hb
  | panic => rw [hxe] at hb; cases hb
  | hang => rw [hxe] at hb; cases hb
theorem next {x : Out α} {f : α → Out β} (hf : ∀ a, (f a).Post Q) : (x >>= f).Post Q :=
  bind (any x) (fun a _ => hf a)
theorem mono {x : Out α} {P' : α → Prop} (hx : x.Post P) (h : ∀ a, P a → P' a) : x.Post P' :=
  fun a ha => h a (hx a ha)
theorem loop {σ : Type} {I : σ → Prop} {f : Nat → σ → Out σ} (hf : ∀ i s, I s → (f i s).Post I) :
    ∀ (n i : Nat) (s : σ), I s → (GB.loop n i f s).Post I
  | 0, _, _, h => ok h
  | n + 1, i, s, h => bind (hf i s h) (fun a ha => loop hf n (i + 1) a ha)

end Out.Post

open Out

/-! ## The methods, in any state -/

theorem CSR.remove_dims (s : CSR T) (p r : Nat) : (s.remove p r).Post (fun x => x.r = s.r ∧ x.c = s.c) :=
  .next fun _ => .next fun _ => .next fun _ => .ok ⟨rfl, rfl⟩

theorem CSR.insert_dims (s : CSR T) (p r c : Nat) (v : T) : (s.insert p r c v).Post (fun x => x.1.r = s.r ∧ x.1.c = s.c) :=
  .ite (.ok ⟨rfl, rfl⟩) (.next fun _ => .next fun _ => .next fun _ => .ok ⟨rfl, rfl⟩)

theorem CSR.updateRP_dims (s : CSR T) (r c : Int) (f : T → β × T) :
    (s.updateRP r c f).Post (fun x => x.2.1.r = s.r ∧ x.2.1.c = s.c) := by
  unfold CSR.updateRP
  refine .ite (.ite (.next fun _ => .next fun _ => .ite (.next fun _ => .ite ?_ ?_) ?_) .panic) .panic
  · exact .bind (s.remove_dims _ _) fun _ h => .ok h
  · exact .next fun _ => .ok ⟨rfl, rfl⟩
  · exact .bind (s.insert_dims _ _ _ _) fun _ h => .ok h

theorem CSR.updateWith_dims (s : CSR T) (r c : Int) (f : T → β × T) :
    (s.updateWith r c f).Post (fun x => x.2.r = s.r ∧ x.2.c = s.c) :=
  .bind (s.updateRP_dims r c f) fun _ h => .ok h

theorem CSR.update_dims (s : CSR T) (r c : Int) (f : T → T) : (s.update r c f).Post (fun x => x.r = s.r ∧ x.c = s.c) :=
  .bind (s.updateWith_dims r c _) fun _ h => .ok h

theorem CSR.put_dims (s : CSR T) (it : CSR.Iter) (v : T) : (s.put it v).Post (fun x => x.r = s.r ∧ x.c = s.c) :=
  .ite (.next fun _ => .ok ⟨rfl, rfl⟩) (s.remove_dims _ _)

theorem CSC.remove_dims (s : CSC T) (p r : Nat) : (s.remove p r).Post (fun x => x.r = s.r ∧ x.c = s.c) :=
  .next fun _ => .next fun _ => .next fun _ => .ok ⟨rfl, rfl⟩

theorem CSC.insert_dims (s : CSC T) (p r c : Nat) (v : T) : (s.insert p r c v).Post (fun x => x.1.r = s.r ∧ x.1.c = s.c) :=
  .ite (.ok ⟨rfl, rfl⟩) (.next fun _ => .next fun _ => .next fun _ => .ok ⟨rfl, rfl⟩)

theorem CSC.updateRP_dims (s : CSC T) (r c : Int) (f : T → β × T) :
    (s.updateRP r c f).Post (fun x => x.2.1.r = s.r ∧ x.2.1.c = s.c) := by
  unfold CSC.updateRP
  refine .ite (.ite (.next fun _ => .next fun _ => .ite (.next fun _ => .ite ?_ ?_) ?_) .panic) .panic
  · exact .bind (s.remove_dims _ _) fun _ h => .ok h
  · exact .next fun _ => .ok ⟨rfl, rfl⟩
  · exact .bind (s.insert_dims _ _ _ _) fun _ h => .ok h

theorem CSC.updateWith_dims (s : CSC T) (r c : Int) (f : T → β × T) :
    (s.updateWith r c f).Post (fun x => x.2.r = s.r ∧ x.2.c = s.c) :=
  .bind (s.updateRP_dims r c f) fun _ h => .ok h

theorem CSC.update_dims (s : CSC T) (r c : Int) (f : T → T) : (s.update r c f).Post (fun x => x.r = s.r ∧ x.c = s.c) :=
  .bind (s.updateWith_dims r c _) fun _ h => .ok h

theorem CSC.put_dims (s : CSC T) (it : CSC.Iter) (v : T) : (s.put it v).Post (fun x => x.r = s.r ∧ x.c = s.c) :=
  .ite (.next fun _ => .ok ⟨rfl, rfl⟩) (s.remove_dims _ _)

/-- A rectangular array of the given size. -/
def Dense.Full (s : Dense T) : Prop := s.data.length = s.r ∧ ∀ row ∈ s.data, row.length = s.c

/-- What the methods of a dense matrix keep. -/
def Dense.Keeps (s x : Dense T) : Prop := x.r = s.r ∧ x.c = s.c ∧ (s.Full → x.Full)

theorem Dense.store_full (s : Dense T) (r : Nat) (row : List T) (c : Nat) (v : T) (h : idx s.data r = .ok row) :
    (setIdx row c v >>= fun row' => setIdx s.data r row' >>= fun d => Out.ok { s with data := d }).Post s.Keeps := by
  refine .bind (P := fun row' => row'.length = row.length) (.ite (.ok (by simp)) .panic) fun row' hrow => ?_
  refine .bind (P := fun d => d = s.data.set r row') (.ite (.ok rfl) .panic) fun d hd => .ok ⟨rfl, rfl, fun hf => ?_⟩
  have hmem : row ∈ s.data := by
    unfold idx at h
    split at h
    · rename_i a ha
      cases h
      exact List.mem_of_getElem? ha
    · cases h
  subst hd
  refine ⟨by simpa using hf.1, fun x hx => ?_⟩
  rcases List.mem_or_eq_of_mem_set hx with hx | rfl
  · exact hf.2 x hx
  · rw [hrow]; exact hf.2 row hmem

theorem Dense.updateWith_keeps (s : Dense T) (r c : Int) (f : T → β × T) :
    (s.updateWith r c f).Post (fun x => s.Keeps x.2) := by
  refine .ite (.ite (.bind (P := fun row => idx s.data r.toNat = .ok row) (fun _ h => h) fun row hrow => .next fun v => ?_) .panic) .panic
  have := s.store_full r.toNat row c.toNat (f v).2 hrow
  rintro ⟨b, x⟩ hx
  refine this x ?_
  revert hx
  cases setIdx row c.toNat (f v).2 with
  | ok row' =>
    simp only [Out.ok_bind]
    cases setIdx s.data r.toNat row' with
    | ok d => simp only [Out.ok_bind]; intro hx; cases hx; rfl
    | panic => intro hx; cases hx
    | hang => intro hx; cases hx
  | panic => intro hx; cases hx
  | hang => intro hx; cases hx

theorem Dense.update_keeps (s : Dense T) (r c : Int) (f : T → T) : (s.update r c f).Post s.Keeps :=
  .bind (s.updateWith_keeps r c _) fun _ h => .ok h

theorem Dense.set_keeps (s : Dense T) (r c : Int) (v : T) : (s.set r c v).Post s.Keeps :=
  .ite (.ite (.bind (P := fun row => idx s.data r.toNat = .ok row) (fun _ h => h) fun row hrow =>
    s.store_full r.toNat row c.toNat v hrow) .panic) .panic

theorem Dense.clear_keeps (s : Dense T) : s.Keeps s.clear := by
  refine ⟨rfl, rfl, fun _ => ⟨by simp [Dense.clear], fun row h => ?_⟩⟩
  obtain ⟨-, rfl⟩ := List.mem_replicate.1 h
  simp [Dense.clear]

theorem SVec.remove_dims (s : SVec T) (p : Nat) : (s.remove p).Post (fun x => x.l = s.l) :=
  .next fun _ => .next fun _ => .ok rfl

theorem SVec.insert_dims (s : SVec T) (p i : Nat) (v : T) : (s.insert p i v).Post (fun x => x.l = s.l) :=
  .ite (.ok rfl) (.next fun _ => .next fun _ => .ok rfl)

theorem SVec.setVec_dims (s : SVec T) (i : Int) (v : T) : (s.setVec i v).Post (fun x => x.l = s.l) :=
  .ite (.next fun _ => .ite (.next fun _ => .ite (.ite (s.remove_dims _) (.next fun _ => .ok rfl)) (s.insert_dims _ _ _))
    (s.insert_dims _ _ _)) .panic

theorem SVec.updateWith_dims (s : SVec T) (r c : Int) (f : T → β × T) : (s.updateWith r c f).Post (fun x => x.2.l = s.l) :=
  .ite (.ite (.next fun _ => .bind (s.setVec_dims _ _) fun _ h => .ok h) .panic) .panic

theorem SVec.update_dims (s : SVec T) (r c : Int) (f : T → T) : (s.update r c f).Post (fun x => x.l = s.l) :=
  .bind (s.updateWith_dims r c _) fun _ h => .ok h

theorem SVec.set_dims (s : SVec T) (r c : Int) (v : T) : (s.set r c v).Post (fun x => x.l = s.l) :=
  .ite (.ite (s.setVec_dims _ _) .panic) .panic

theorem SVec.put_dims (s : SVec T) (it : SVec.Iter) (v : T) : (s.put it v).Post (fun x => x.l = s.l) :=
  .ite (.next fun _ => .ok rfl) (s.remove_dims _)

/-- What the methods of a dense vector keep, `ReSize` excepted. -/
def DVec.Keeps (s x : DVec T) : Prop := x.l = s.l ∧ (s.values.length = s.l → x.values.length = x.l)

theorem DVec.setVec_keeps (s : DVec T) (i : Int) (v : T) : (s.setVec i v).Post s.Keeps :=
  .ite (.bind (P := fun l => l.length = s.values.length) (.ite (.ok (by simp)) .panic)
    fun _ h => .ok ⟨rfl, fun hl => h.trans hl⟩) .panic

theorem DVec.updateWith_keeps (s : DVec T) (r c : Int) (f : T → β × T) : (s.updateWith r c f).Post (fun x => s.Keeps x.2) :=
  .ite (.ite (.next fun _ => .bind (s.setVec_keeps _ _) fun _ h => .ok h) .panic) .panic

theorem DVec.update_keeps (s : DVec T) (r c : Int) (f : T → T) : (s.update r c f).Post s.Keeps :=
  .bind (s.updateWith_keeps r c _) fun _ h => .ok h

theorem DVec.set_keeps (s : DVec T) (r c : Int) (v : T) : (s.set r c v).Post s.Keeps :=
  .ite (.ite (s.setVec_keeps _ _) .panic) .panic

theorem DVec.clear_keeps (s : DVec T) : s.Keeps s.clear := ⟨rfl, fun _ => by simp [DVec.clear]⟩

/-- What every method keeps: the dynamic type, the dimensions, and that the array of a dense object has
those dimensions. -/
def Mat.Kept : Mat T → Mat T → Prop
  | .csr s, .csr x => x.r = s.r ∧ x.c = s.c
  | .csc s, .csc x => x.r = s.r ∧ x.c = s.c
  | .dense s, .dense x => s.Keeps x
  | .dvec s, .dvec x => s.Keeps x
  | .svec s, .svec x => x.l = s.l
  | _, _ => False

/-! ## Relations every method keeps -/

/-- `R` holds between the states of an object before and after a call that returns. -/
structure Closed (R : Mat T → Mat T → Prop) : Prop where
  refl (m : Mat T) : R m m
  trans {a b c : Mat T} : R a b → R b c → R a c
  at' (m : Mat T) (r c : Int) : (m.at' r c).Post (fun x => R m x.2)
  element (m : Mat T) (r c : Int) : (m.element r c).Post (fun x => R m x.2)
  set (m : Mat T) (r c : Int) (v : T) : (m.set r c v).Post (R m)
  update (m : Mat T) (r c : Int) (f : T → T) : (m.update r c f).Post (R m)
  clear (m : Mat T) : R m m.clear
  put (m : Mat T) (it : Mat.Iter) (v : T) : (m.put it v).Post (R m)
  setVec (s : DVec T) (i : Int) (v : T) : (s.setVec i v).Post (fun x => R (.dvec s) (.dvec x))

theorem Mat.kept_closed : Closed (Mat.Kept (T := T)) where
  refl m := by cases m <;> simp [Mat.Kept, Dense.Keeps, DVec.Keeps]
  trans {a b c} h1 h2 := by
    cases a <;> cases b <;> cases c <;> simp only [Mat.Kept] at h1 h2 ⊢
    · exact ⟨h2.1.trans h1.1, h2.2.trans h1.2⟩
    · exact ⟨h2.1.trans h1.1, h2.2.trans h1.2⟩
    · exact ⟨h2.1.trans h1.1, h2.2.1.trans h1.2.1, fun h => h2.2.2 (h1.2.2 h)⟩
    · exact ⟨h2.1.trans h1.1, fun h => h2.2 (h1.2 h)⟩
    · exact h2.trans h1
  at' m r c := by
    cases m with
    | csr s => exact .bind (s.updateWith_dims r c _) fun _ h => .ok h
    | csc s => exact .bind (s.updateWith_dims r c _) fun _ h => .ok h
    | dense s => exact .next fun _ => .ok ⟨rfl, rfl, id⟩
    | dvec s => exact .next fun _ => .ok ⟨rfl, id⟩
    | svec s => exact .bind (s.updateWith_dims r c _) fun _ h => .ok h
  element m r c := by
    cases m with
    | csr s => exact .bind (s.updateWith_dims r c _) fun _ h => .ok h
    | csc s => exact .bind (s.updateWith_dims r c _) fun _ h => .ok h
    | dense s => exact .next fun _ => .ok ⟨rfl, rfl, id⟩
    | dvec s => exact .next fun _ => .ok ⟨rfl, id⟩
    | svec s => exact .next fun _ => .ok rfl
  set m r c v := by
    cases m with
    | csr s => exact .bind (s.update_dims r c _) fun _ h => .ok h
    | csc s => exact .bind (s.update_dims r c _) fun _ h => .ok h
    | dense s => exact .bind (s.set_keeps r c v) fun _ h => .ok h
    | dvec s => exact .bind (s.set_keeps r c v) fun _ h => .ok h
    | svec s => exact .bind (s.set_dims r c v) fun _ h => .ok h
  update m r c f := by
    cases m with
    | csr s => exact .bind (s.update_dims r c f) fun _ h => .ok h
    | csc s => exact .bind (s.update_dims r c f) fun _ h => .ok h
    | dense s => exact .bind (s.update_keeps r c f) fun _ h => .ok h
    | dvec s => exact .bind (s.update_keeps r c f) fun _ h => .ok h
    | svec s => exact .bind (s.update_dims r c f) fun _ h => .ok h
  clear m := by
    cases m with
    | csr s => exact ⟨rfl, rfl⟩
    | csc s => exact ⟨rfl, rfl⟩
    | dense s => exact s.clear_keeps
    | dvec s => exact s.clear_keeps
    | svec s => exact rfl
  put m it v := by
    cases m <;> cases it <;> first | exact .panic | skip
    · exact .bind (CSR.put_dims _ _ v) fun _ h => .ok h
    · exact .bind (CSC.put_dims _ _ v) fun _ h => .ok h
    · exact .bind (Dense.set_keeps _ _ _ v) fun _ h => .ok h
    · exact .bind (DVec.setVec_keeps _ _ v) fun _ h => .ok h
    · exact .bind (SVec.put_dims _ _ v) fun _ h => .ok h
  setVec s i v := s.setVec_keeps i v

/-- The same without the array of a dense matrix, which is not whole in the middle of `Clear`. -/
def Mat.ShapeKept : Mat T → Mat T → Prop
  | .dense s, .dense x => x.r = s.r ∧ x.c = s.c
  | a, b => Mat.Kept a b

theorem Mat.Kept.shape {a b : Mat T} (h : Mat.Kept a b) : Mat.ShapeKept a b := by
  cases a <;> cases b <;> first | exact h | exact ⟨h.1, h.2.1⟩

theorem Mat.shapeKept_closed : Closed (Mat.ShapeKept (T := T)) where
  refl m := (Mat.kept_closed.refl m).shape
  trans {a b c} h1 h2 := by
    cases a <;> cases b <;> cases c <;> simp only [Mat.ShapeKept, Mat.Kept] at h1 h2 ⊢
    · exact ⟨h2.1.trans h1.1, h2.2.trans h1.2⟩
    · exact ⟨h2.1.trans h1.1, h2.2.trans h1.2⟩
    · exact ⟨h2.1.trans h1.1, h2.2.trans h1.2⟩
    · exact ⟨h2.1.trans h1.1, fun h => h2.2 (h1.2 h)⟩
    · exact h2.trans h1
  at' m r c := (Mat.kept_closed.at' m r c).mono fun _ h => h.shape
  element m r c := (Mat.kept_closed.element m r c).mono fun _ h => h.shape
  set m r c v := (Mat.kept_closed.set m r c v).mono fun _ h => h.shape
  update m r c f := (Mat.kept_closed.update m r c f).mono fun _ h => h.shape
  clear m := (Mat.kept_closed.clear m).shape
  put m it v := (Mat.kept_closed.put m it v).mono fun _ h => h.shape
  setVec s i v := (Mat.kept_closed.setVec s i v).mono fun _ h => h.shape

/-! ## Statements -/

variable {R : Mat T → Mat T → Prop}

/-- Whatever the outcome: the objects that existed before are related to what they are now, none disappears, and
the registry is the same. -/
structure Stable (R : Mat T → Mat T → Prop) (x : M T α) : Prop where
  out : ∀ w, w.next ≤ (x w).world.next ∧ (x w).world.reg = w.reg ∧ ∀ p, p < w.next → R (w.heap p) ((x w).world.heap p)

namespace Stable

theorem id' (hR : Closed R) {x : M T α} (h : ∀ w, (x w).world.heap = w.heap ∧ (x w).world.next = w.next ∧
    (x w).world.reg = w.reg) : Stable R x := ⟨fun w =>
  ⟨(h w).2.1.ge, (h w).2.2, fun p _ => by rw [(h w).1]; exact hR.refl _⟩⟩

theorem pure' (hR : Closed R) (a : α) : Stable R (pure a : M T α) := id' hR fun _ => ⟨rfl, rfl, rfl⟩
theorem fail (hR : Closed R) : Stable R (M.fail : M T α) := id' hR fun _ => ⟨rfl, rfl, rfl⟩
theorem hang (hR : Closed R) : Stable R (fun w => Res.hang w : M T α) := id' hR fun _ => ⟨rfl, rfl, rfl⟩
theorem rowsOf (hR : Closed R) (p : Ref) : Stable R (M.rowsOf p) := id' hR fun _ => ⟨rfl, rfl, rfl⟩
theorem colsOf (hR : Closed R) (p : Ref) : Stable R (M.colsOf p) := id' hR fun _ => ⟨rfl, rfl, rfl⟩
theorem valuesOf (hR : Closed R) (p : Ref) : Stable R (M.valuesOf p) := id' hR fun _ => ⟨rfl, rfl, rfl⟩
theorem iterOf (hR : Closed R) (p : Ref) : Stable R (M.iterOf p) := id' hR fun _ => ⟨rfl, rfl, rfl⟩
theorem isSparse (hR : Closed R) (p : Ref) : Stable R (M.isSparse p) := id' hR fun _ => ⟨rfl, rfl, rfl⟩
theorem look (hR : Closed R) (p : Ref) : Stable R (BFS.look p) := id' hR fun _ => ⟨rfl, rfl, rfl⟩
theorem ofObj (hR : Closed R) (p : Ref) (f : Mat T → Out α) : Stable R (M.ofObj p f) := id' hR fun w => by
  unfold M.ofObj; split <;> exact ⟨rfl, rfl, rfl⟩
theorem lift (hR : Closed R) (x : Out α) : Stable R (M.lift x) := id' hR fun w => by
  unfold M.lift; split <;> exact ⟨rfl, rfl, rfl⟩
theorem poll (hR : Closed R) : Stable R (M.poll (T := T)) := id' hR fun w => by
  unfold M.poll; split <;> exact ⟨rfl, rfl, rfl⟩

theorem bind (hR : Closed R) {x : M T α} {f : α → M T β} (hx : Stable R x) (hf : ∀ a, Stable R (f a)) :
    Stable R (x >>= f) := by
  refine ⟨fun w => ?_⟩
  have h := hx.out w
  have e : (x >>= f) w = M.bind' x f w := rfl
  unfold M.bind' at e
  cases hxw : x w with
  | ok a w' =>
    rw [hxw] at h e
    have h2 := (hf a).out w'
    rw [e]
    exact ⟨le_trans h.1 h2.1, h2.2.1.trans h.2.1, fun p hp =>
      hR.trans (h.2.2 p hp) (h2.2.2 p (lt_of_lt_of_le hp h.1))⟩
  | panic w' => rw [hxw] at h e; rw [e]; exact h
  | hang w' => rw [hxw] at h e; rw [e]; exact h

theorem ite {c : Prop} [Decidable c] {x y : M T α} (hx : Stable R x) (hy : Stable R y) :
    Stable R (if c then x else y) := by split <;> assumption

theorem withObj (hR : Closed R) (p : Ref) {f : Mat T → Out (α × Mat T)} (hf : ∀ m, (f m).Post (fun x => R m x.2)) :
    Stable R (M.withObj p f) := by
  refine ⟨fun w => ?_⟩
  unfold M.withObj
  cases h : f (w.heap p) with
  | ok x =>
    obtain ⟨a, m⟩ := x
    refine ⟨le_rfl, rfl, fun q _ => ?_⟩
    show R (w.heap q) (Function.update w.heap p m q)
    by_cases e : q = p
    · subst e; rw [Function.update_self]; exact hf _ _ h
    · rw [Function.update_of_ne e]; exact hR.refl _
  | panic => exact ⟨le_rfl, rfl, fun q _ => hR.refl _⟩
  | hang => exact ⟨le_rfl, rfl, fun q _ => hR.refl _⟩

theorem at' (hR : Closed R) (p : Ref) (r c : Nat) : Stable R (M.at' p r c) := withObj hR p fun m => hR.at' m r c
theorem set (hR : Closed R) (p : Ref) (r c : Nat) (v : T) : Stable R (M.set p r c v) :=
  withObj hR p fun m => .bind (hR.set m r c v) fun _ h => .ok h
theorem update (hR : Closed R) (p : Ref) (r c : Nat) (f : T → T) : Stable R (M.update p r c f) :=
  withObj hR p fun m => .bind (hR.update m r c f) fun _ h => .ok h
theorem clear (hR : Closed R) (p : Ref) : Stable R (M.clear p) := withObj hR p fun m => .ok (hR.clear m)

theorem alloc (hR : Closed R) (m : Mat T) : Stable R (M.alloc m) := ⟨fun w =>
  ⟨Nat.le_succ _, rfl, fun p hp => by
    show R (w.heap p) (Function.update w.heap w.next m p)
    rw [Function.update_of_ne (Nat.ne_of_lt hp)]; exact hR.refl _⟩⟩

theorem copy (hR : Closed R) (p : Ref) : Stable R (M.copy p) := bind hR (ofObj hR p _) fun m => alloc hR m

theorem loopIter (hR : Closed R) (p : Ref) (onCancel : Option β) {body : Nat → Nat → T → M T (Option β)}
    (hb : ∀ r c v, Stable R (body r c v)) : ∀ g it, Stable R (M.loopIter p onCancel body g it)
  | 0, it => by unfold M.loopIter; exact ite (hang hR) (pure' hR _)
  | g + 1, it => by
    unfold M.loopIter
    refine ite (bind hR (poll hR) fun _ => ite ?_ ?_) (pure' hR _)
    · cases onCancel with
      | some b => exact pure' hR _
      | none => exact loopIter hR p _ hb g it
    · refine bind hR (ofObj hR p _) fun ⟨it', r, c, v⟩ => bind hR (hb r c v) fun o => ?_
      cases o with
      | some b => exact pure' hR _
      | none => exact loopIter hR p _ hb g it'

theorem forEach (hR : Closed R) (p : Ref) (onCancel : Option β) {body : Nat → Nat → T → M T (Option β)}
    (hb : ∀ r c v, Stable R (body r c v)) : Stable R (M.forEach p onCancel body) :=
  bind hR (iterOf hR p) fun it => ⟨fun w => (loopIter hR p onCancel hb w.gas it).out w⟩

theorem loopMap (hR : Closed R) (p : Ref) (onCancel : Bool) {f : Nat → Nat → T → M T T}
    (hf : ∀ r c v, Stable R (f r c v)) : ∀ g it, Stable R (M.loopMap p onCancel f g it)
  | 0, it => by unfold M.loopMap; exact ite (hang hR) (pure' hR _)
  | g + 1, it => by
    unfold M.loopMap
    refine ite (bind hR (poll hR) fun _ => ite (ite (pure' hR _) (loopMap hR p _ hf g it)) ?_) (pure' hR _)
    exact bind hR (ofObj hR p _) fun ⟨it', r, c, v⟩ => bind hR (hf r c v) fun v' =>
      bind hR (withObj hR p fun m => .bind (hR.put m it' v') fun _ h => .ok h) fun _ => loopMap hR p _ hf g it'

theorem forMap (hR : Closed R) (p : Ref) (onCancel : Bool) {f : Nat → Nat → T → M T T}
    (hf : ∀ r c v, Stable R (f r c v)) : Stable R (M.forMap p onCancel f) :=
  bind hR (iterOf hR p) fun it => ⟨fun w => (loopMap hR p onCancel hf w.gas it).out w⟩

theorem forN (hR : Closed R) {body : Nat → M T (Option β)} (hb : ∀ i, Stable R (body i)) :
    ∀ n i, Stable R (M.forN n i body)
  | 0, i => pure' hR _
  | n + 1, i => by
    unfold M.forN
    refine bind hR (hb i) fun o => ?_
    cases o with
    | some b => exact pure' hR _
    | none => exact forN hR hb n (i + 1)

theorem orEmpty (hR : Closed R) (mask : Mask) (p : Ref) : Stable R (mask.orEmpty p) := by
  cases mask with
  | nil => exact bind hR (rowsOf hR _) fun _ => bind hR (colsOf hR _) fun _ => pure' hR _
  | empty r c => exact pure' hR _
  | ref q => exact pure' hR _
  | given r c el => exact pure' hR _

theorem maskRows (hR : Closed R) (mask : Mask) : Stable R mask.rows := by
  cases mask with
  | nil => exact fail hR
  | empty r c => exact pure' hR _
  | ref q => exact rowsOf hR _
  | given r c el => exact pure' hR _

theorem maskCols (hR : Closed R) (mask : Mask) : Stable R mask.cols := by
  cases mask with
  | nil => exact fail hR
  | empty r c => exact pure' hR _
  | ref q => exact colsOf hR _
  | given r c el => exact pure' hR _

theorem element (hR : Closed R) (mask : Mask) (r c : Nat) : Stable R (mask.element r c) := by
  cases mask with
  | nil => exact fail hR
  | empty r c => exact pure' hR _
  | ref q => exact withObj hR q fun m => hR.element m r c
  | given _ _ el =>
    cases h : el r c with
    | none => simp only [Mask.element, h]; exact fail hR
    | some b => simp only [Mask.element, h]; exact pure' hR _

/-- Apply the rules as long as one fits. -/
macro "stable" hR:ident : tactic => `(tactic| repeat' first
  | assumption
  | exact pure' $hR _ | exact fail $hR | exact hang $hR | exact rowsOf $hR _ | exact colsOf $hR _ | exact valuesOf $hR _
  | exact iterOf $hR _ | exact isSparse $hR _ | exact look $hR _ | exact ofObj $hR _ _ | exact lift $hR _ | exact poll $hR
  | exact at' $hR _ _ _ | exact set $hR _ _ _ _ | exact update $hR _ _ _ _ | exact clear $hR _ | exact alloc $hR _
  | exact copy $hR _ | exact orEmpty $hR _ _ | exact maskRows $hR _ | exact maskCols $hR _ | exact element $hR _ _ _
  | refine forEach $hR _ _ ?_ | refine forMap $hR _ _ ?_ | refine forN $hR ?_ _ _
  | with_reducible refine bind $hR ?_ ?_
  | intro _
  | split
  | dsimp only)

theorem check (hR : Closed R) (mask : Mask) (p : Ref) : Stable R (mask.check p) := by
  unfold Mask.check
  stable hR

theorem background {x : M T α} (hx : Stable R x) : Stable R (Meth.background x) := by
  refine ⟨fun w => ?_⟩
  have h := hx.out { w with cancel := none }
  unfold Meth.background
  cases hxw : x { w with cancel := none } <;> rw [hxw] at h <;> exact h

end Stable
end GB
