import Verif.Lemmas.Share3

/-!
# Rows and columns handed out, in memory
-/

namespace GB.Share

variable {T : Type} [GoNum T] {m m' : Mem T} {F G : Tag → Nat → Prop}

omit [GoNum T] in
/-- Post-composition with a pure function on both sides. -/
theorem Sim.map {α β γ δ : Type} {x : H T α} {y : Out β} {R : α → β → Mem T → Prop} {R' : γ → δ → Mem T → Prop}
    {f : α → γ} {g : β → δ} (h : Sim m F x y R) (hR : ∀ a b m', R a b m' → R' (f a) (g b) m') :
    Sim m F (x >>= fun a => Pure.pure (f a)) (y >>= fun b => .ok (g b)) R' :=
  Sim.bind h (fun _ _ h => h) fun a b m' h' _ => Sim.pure (hR a b m' h')

omit [GoNum T] in
theorem Sim.left' {α β γ δ : Type} {x : H T α} {b : β} {f : α → H T γ} {y : Out δ} {R : α → β → Mem T → Prop}
    {R' : γ → δ → Mem T → Prop} (hx : Sim m F x (.ok b) R)
    (hf : ∀ a m', R a b m' → m.Keeps m' F → Sim m' F (f a) y R') : Sim m F (x >>= f) y R' := by
  refine Sim.bind (y := .ok b) (g := fun _ => y) (R := fun a c m' => c = b ∧ R a b m') ?_ (fun _ _ h => h) fun a c m' h' k => hf a m' h'.2 k
  unfold Sim at hx ⊢
  revert hx
  rcases x m with ⟨a, m'⟩ | m' | m' <;> intro hx
  · exact ⟨⟨rfl, hx.1⟩, hx.2⟩
  · exact hx.elim
  · exact hx.elim

omit [GoNum T] in
theorem Sim.leftMap {α β γ : Type} {x : H T α} {y : Out β} {f : α → γ} {R : α → β → Mem T → Prop}
    {R' : γ → β → Mem T → Prop} (hx : Sim m F x y R) (hR : ∀ a b m', R a b m' → m.Keeps m' F → R' (f a) b m') :
    Sim m F (x >>= fun a => Pure.pure (f a)) y R' := by
  have e : y = y >>= fun b => .ok b := by cases y <;> rfl
  rw [e]
  exact Sim.map (hx.mono (R₂ := fun a b m' => R' (f a) b m') (fun _ _ h => h) hR) fun _ _ _ h => h


omit [GoNum T] in
theorem off_old {P : Tag → Nat → Prop} : ∀ t a, fresh m.next t a → P t a → a < m.next → False :=
  fun _ _ h _ hl => by simp only [fresh] at h; omega

/-- Filling a new sparse vector. -/
theorem fillS {n i0 : Nat} {o : LSVec} {v : SVec T} {body : Nat → LSVec → H T LSVec} {g : Nat → SVec T → Out (SVec T)}
    (hk : m.Keeps m' (fresh m.next)) (h : LSVec.Own m' (fresh m.next) o v)
    (hb : ∀ i o v m', m.Keeps m' (fresh m.next) → LSVec.Own m' (fresh m.next) o v →
      Sim m' (fresh m.next) (body i o) (g i v) (fun o v m'' => LSVec.Own m'' (fresh m.next) o v)) :
    Sim m' (fresh m.next) (hLoop n i0 body o) (loop n i0 g v) (fun o v m'' => LSVec.Own m'' (fresh m.next) o v) := by
  refine (Sim.loop (R := fun o v m' => LSVec.Own m' (fresh m.next) o v ∧ m.Keeps m' (fresh m.next)) _ _ ⟨h, hk⟩ ?_).mono
    (fun _ _ e => e) fun _ _ _ h _ => h.1
  rintro i o1 v1 m2 - - ⟨ho1, hk2⟩
  exact (hb i o1 v1 m2 hk2 ho1).mono (fun _ _ e => e) fun _ _ _ h hk => ⟨h, hk2.trans hk⟩

/-- Filling a new dense vector. -/
theorem fillD {n i0 : Nat} {o : LDVec} {v : DVec T} {body : Nat → LDVec → H T LDVec} {g : Nat → DVec T → Out (DVec T)}
    (hk : m.Keeps m' (fresh m.next)) (h : LDVec.Own m' (fresh m.next) o v)
    (hb : ∀ i o v m', m.Keeps m' (fresh m.next) → LDVec.Own m' (fresh m.next) o v →
      Sim m' (fresh m.next) (body i o) (g i v) (fun o v m'' => LDVec.Own m'' (fresh m.next) o v)) :
    Sim m' (fresh m.next) (hLoop n i0 body o) (loop n i0 g v) (fun o v m'' => LDVec.Own m'' (fresh m.next) o v) := by
  refine (Sim.loop (R := fun o v m' => LDVec.Own m' (fresh m.next) o v ∧ m.Keeps m' (fresh m.next)) _ _ ⟨h, hk⟩ ?_).mono
    (fun _ _ e => e) fun _ _ _ h _ => h.1
  rintro i o1 v1 m2 - - ⟨ho1, hk2⟩
  exact (hb i o1 v1 m2 hk2 ho1).mono (fun _ _ e => e) fun _ _ _ h hk => ⟨h, hk2.trans hk⟩

/-- Filling a new array. -/
theorem fillA {n i0 : Nat} {s : Slice} {l : List T} {body : Nat → Unit → H T Unit} {g : Nat → List T → Out (List T)}
    (hk : m.Keeps m' (fresh m.next)) (h : Sl numF m' (fresh m.next) s l)
    (hb : ∀ i l m', m.Keeps m' (fresh m.next) → Sl numF m' (fresh m.next) s l →
      Sim m' (fresh m.next) (body i ()) (g i l) (fun _ l m'' => Sl numF m'' (fresh m.next) s l)) :
    Sim m' (fresh m.next) (hLoop n i0 body () >>= fun _ => Pure.pure s) (loop n i0 g l)
      (fun s l m'' => Sl numF m'' (fresh m.next) s l) := by
  refine Sim.right'' (R := fun _ l m'' => Sl numF m'' (fresh m.next) s l ∧ m.Keeps m'' (fresh m.next))
    (Sim.loop (R := fun _ l m'' => Sl numF m'' (fresh m.next) s l ∧ m.Keeps m'' (fresh m.next)) _ _ ⟨h, hk⟩ ?_) fun _ _ _ h => h.1
  rintro i ⟨⟩ l1 m2 - - ⟨ho1, hk2⟩
  exact (hb i l1 m2 hk2 ho1).mono (fun _ _ e => e) fun _ _ _ h hk => ⟨h, hk2.trans hk⟩

theorem setA {s : Slice} {l : List T} (hk : m.Keeps m' (fresh m.next)) (h : Sl numF m' (fresh m.next) s l) (i : Nat) (x : T) :
    Sim m' (fresh m.next) (hSet numF s i x) (setIdx l i x) (fun _ l m'' => Sl numF m'' (fresh m.next) s l) := by
  refine (Sim.set numF_ok h i x).mono ?_ fun _ _ _ h _ => h.1
  rintro t a (⟨-, rfl⟩ | e)
  · exact h.mem
  · exact hk.1.trans e

/-- A new array of zeros. -/
theorem allocA {γ δ : Type} {n : Nat} {f : Slice → H T γ} {y : Out δ} {R : γ → δ → Mem T → Prop}
    (hf : ∀ s m', m.Keeps m' (fresh m.next) → Sl numF m' (fresh m.next) s (List.replicate n 0) → Sim m' (fresh m.next) (f s) y R) :
    Sim m (fresh m.next) (hAlloc numF (List.replicate n 0) >>= f) y R := by
  obtain ⟨m1, t1, e1, h1, -, -, -, -, k1⟩ := alloc_ok numF_ok (F := fresh m.next) m (le_refl _) (List.replicate n (0 : T))
  exact Sim.left e1 k1 (fun _ _ h => h) (hf t1 m1 k1 h1)

theorem newS {γ δ : Type} {n : Nat} {f : LSVec → H T γ} {y : Out δ} {R : γ → δ → Mem T → Prop}
    (hf : ∀ s m', m.Keeps m' (fresh m.next) → LSVec.Own m' (fresh m.next) s (SVec.new n) → Sim m' (fresh m.next) (f s) y R) :
    Sim m (fresh m.next) (LSVec.new (T := T) n >>= f) y R :=
  Sim.left' (LSVec.newL_sim (F := fresh m.next) (fun _ _ e => e) n 0) fun s m' h k => hf s m' k h.1

theorem newD {γ δ : Type} {n : Nat} {f : LDVec → H T γ} {y : Out δ} {R : γ → δ → Mem T → Prop}
    (hf : ∀ s m', m.Keeps m' (fresh m.next) → LDVec.Own m' (fresh m.next) s (DVec.new n) → Sim m' (fresh m.next) (f s) y R) :
    Sim m (fresh m.next) (LDVec.new (T := T) n >>= f) y R :=
  Sim.left' (LDVec.new_sim (F := fresh m.next) (fun _ _ e => e) n) fun s m' h k => hf s m' k h.1

theorem putS {o : LSVec} {v : SVec T} (hk : m.Keeps m' (fresh m.next)) (h : LSVec.Own m' (fresh m.next) o v) (i : Int) (x : T) :
    Sim m' (fresh m.next) (o.setVec i x) (v.setVec i x) (fun o v m'' => LSVec.Own m'' (fresh m.next) o v) :=
  LSVec.setVec_sim (fun _ _ e => hk.1.trans e) h i x

theorem putD {o : LDVec} {v : DVec T} (hk : m.Keeps m' (fresh m.next)) (h : LDVec.Own m' (fresh m.next) o v) (i : Int) (x : T) :
    Sim m' (fresh m.next) (o.setVec i x) (v.setVec i x) (fun o v m'' => LDVec.Own m'' (fresh m.next) o v) :=
  LDVec.setVec_sim (fun _ _ e => hk.1.trans e) h i x

/-! ## csrMatrix.go -/

namespace LCSR

variable {o : LCSR} {v : CSR T}

theorem columnsAt_sim (h : Own m G o v) (c : Int) :
    Sim m (fresh m.next) (o.columnsAt c : H T LSVec) (v.columnsAt c) (fun o' v' m' => LSVec.Own m' (fresh m.next) o' v') := by
  unfold LCSR.columnsAt CSR.columnsAt
  rw [h.r, h.c]
  split
  swap
  · exact Sim.panic
  refine newS fun s m1 k1 hs => fillS k1 hs ?_
  intro i o1 v1 m2 k2 h2
  have hv : Own m2 G o v := h.keep k2 off_old
  refine Sim.left (G := fresh m.next) hv.view .refl (fun _ _ h => h) ?_
  refine Sim.bind (Sim.lift (F := fresh m.next)) (fun _ _ h => h) ?_
  rintro ⟨ps, pe⟩ _ _ ⟨rfl, rfl⟩ -
  refine Sim.bind (Sim.lift (F := fresh m.next)) (fun _ _ h => h) ?_
  rintro found _ _ ⟨rfl, rfl⟩ -
  cases found
  · exact Sim.pure h2
  · simp only [if_true]
    refine Sim.bind (Sim.idx (G := fresh m.next) hv.values _) (fun _ _ h => h) ?_
    rintro x _ _ ⟨rfl, rfl⟩ -
    exact putS k2 h2 _ _

theorem rowsAt_sim (h : Own m G o v) (r : Int) :
    Sim m (fresh m.next) (o.rowsAt r : H T LSVec) (v.rowsAt r) (fun o' v' m' => LSVec.Own m' (fresh m.next) o' v') := by
  unfold LCSR.rowsAt CSR.rowsAt
  rw [h.r, h.c]
  split
  swap
  · exact Sim.panic
  refine newS fun s m1 k1 hs => ?_
  have hv : Own m1 G o v := h.keep k1 off_old
  refine Sim.bind (Sim.idx (G := fresh m.next) hv.rowStart _) (fun _ _ h => h) ?_
  rintro a _ _ ⟨rfl, rfl⟩ -
  refine Sim.bind (Sim.idx (G := fresh m.next) hv.rowStart _) (fun _ _ h => h) ?_
  rintro b _ _ ⟨rfl, rfl⟩ -
  refine fillS k1 hs ?_
  intro i o1 v1 m2 k2 h2
  have hv : Own m2 G o v := h.keep k2 off_old
  refine Sim.bind (Sim.idx (G := fresh m.next) hv.cols _) (fun _ _ h => h) ?_
  rintro c _ _ ⟨rfl, rfl⟩ -
  refine Sim.bind (Sim.idx (G := fresh m.next) hv.values _) (fun _ _ h => h) ?_
  rintro x _ _ ⟨rfl, rfl⟩ -
  exact putS k2 h2 _ _

theorem rowsAtToArray_sim (h : Own m G o v) (r : Int) :
    Sim m (fresh m.next) (o.rowsAtToArray r : H T Slice) (v.rowsAtToArray r) (fun s l m' => Sl numF m' (fresh m.next) s l) := by
  unfold LCSR.rowsAtToArray CSR.rowsAtToArray
  rw [h.r, h.c]
  split
  swap
  · exact Sim.panic
  refine allocA fun s m1 k1 hs => ?_
  have hv : Own m1 G o v := h.keep k1 off_old
  refine Sim.bind (Sim.idx (G := fresh m.next) hv.rowStart _) (fun _ _ h => h) ?_
  rintro a _ _ ⟨rfl, rfl⟩ -
  refine Sim.bind (Sim.idx (G := fresh m.next) hv.rowStart _) (fun _ _ h => h) ?_
  rintro b _ _ ⟨rfl, rfl⟩ -
  refine fillA k1 hs ?_
  intro i l1 m2 k2 h2
  have hv : Own m2 G o v := h.keep k2 off_old
  refine Sim.bind (Sim.idx (G := fresh m.next) hv.cols _) (fun _ _ h => h) ?_
  rintro c _ _ ⟨rfl, rfl⟩ -
  refine Sim.bind (Sim.idx (G := fresh m.next) hv.values _) (fun _ _ h => h) ?_
  rintro x _ _ ⟨rfl, rfl⟩ -
  exact setA k2 h2 _ _

end LCSR

/-! ## cscMatrix.go -/

namespace LCSC

variable {o : LCSC} {v : CSC T}

theorem rowsAt_sim (h : Own m G o v) (r : Int) :
    Sim m (fresh m.next) (o.rowsAt r : H T LSVec) (v.rowsAt r) (fun o' v' m' => LSVec.Own m' (fresh m.next) o' v') := by
  unfold LCSC.rowsAt CSC.rowsAt
  rw [h.r, h.c]
  split
  swap
  · exact Sim.panic
  refine newS fun s m1 k1 hs => fillS k1 hs ?_
  intro i o1 v1 m2 k2 h2
  have hv : Own m2 G o v := h.keep k2 off_old
  refine Sim.left (G := fresh m.next) hv.view .refl (fun _ _ h => h) ?_
  refine Sim.bind (Sim.lift (F := fresh m.next)) (fun _ _ h => h) ?_
  rintro ⟨ps, pe⟩ _ _ ⟨rfl, rfl⟩ -
  refine Sim.bind (Sim.lift (F := fresh m.next)) (fun _ _ h => h) ?_
  rintro found _ _ ⟨rfl, rfl⟩ -
  cases found
  · exact Sim.pure h2
  · simp only [if_true]
    refine Sim.bind (Sim.idx (G := fresh m.next) hv.values _) (fun _ _ h => h) ?_
    rintro x _ _ ⟨rfl, rfl⟩ -
    exact putS k2 h2 _ _

theorem rowsAtToArray_sim (h : Own m G o v) (r : Int) :
    Sim m (fresh m.next) (o.rowsAtToArray r : H T Slice) (v.rowsAtToArray r) (fun s l m' => Sl numF m' (fresh m.next) s l) := by
  unfold LCSC.rowsAtToArray CSC.rowsAtToArray
  rw [h.r, h.c]
  split
  swap
  · exact Sim.panic
  refine allocA fun s m1 k1 hs => fillA k1 hs ?_
  intro i o1 m2 k2 h2
  have hv : Own m2 G o v := h.keep k2 off_old
  refine Sim.left (G := fresh m.next) hv.view .refl (fun _ _ h => h) ?_
  refine Sim.bind (Sim.lift (F := fresh m.next)) (fun _ _ h => h) ?_
  rintro ⟨ps, pe⟩ _ _ ⟨rfl, rfl⟩ -
  refine Sim.bind (Sim.lift (F := fresh m.next)) (fun _ _ h => h) ?_
  rintro found _ _ ⟨rfl, rfl⟩ -
  cases found
  · exact Sim.pure h2
  · simp only [if_true]
    refine Sim.bind (Sim.idx (G := fresh m.next) hv.values _) (fun _ _ h => h) ?_
    rintro x _ _ ⟨rfl, rfl⟩ -
    exact setA k2 h2 _ _

theorem columnsAt_sim (h : Own m G o v) (c : Int) :
    Sim m (fresh m.next) (o.columnsAt c : H T LSVec) (v.columnsAt c) (fun o' v' m' => LSVec.Own m' (fresh m.next) o' v') := by
  unfold LCSC.columnsAt CSC.columnsAt
  rw [h.r, h.c]
  split
  swap
  · exact Sim.panic
  refine newS fun s m1 k1 hs => ?_
  have hv : Own m1 G o v := h.keep k1 off_old
  refine Sim.bind (Sim.idx (G := fresh m.next) hv.colStart _) (fun _ _ h => h) ?_
  rintro a _ _ ⟨rfl, rfl⟩ -
  refine Sim.bind (Sim.idx (G := fresh m.next) hv.colStart _) (fun _ _ h => h) ?_
  rintro b _ _ ⟨rfl, rfl⟩ -
  refine fillS k1 hs ?_
  intro i o1 v1 m2 k2 h2
  have hv : Own m2 G o v := h.keep k2 off_old
  refine Sim.bind (Sim.idx (G := fresh m.next) hv.rows _) (fun _ _ h => h) ?_
  rintro c _ _ ⟨rfl, rfl⟩ -
  refine Sim.bind (Sim.idx (G := fresh m.next) hv.values _) (fun _ _ h => h) ?_
  rintro x _ _ ⟨rfl, rfl⟩ -
  exact putS k2 h2 _ _

end LCSC

/-! ## denseMatrix.go -/

namespace LDense

variable {o : LDense} {v : Dense T}

/-- `s.data[i][j]`, while new arrays are being filled. -/
theorem elem_sim {γ δ : Type} {f : T → H T γ} {g : T → Out δ} {R : γ → δ → Mem T → Prop} (h : Own m G o v)
    (hk : m.Keeps m' (fresh m.next)) (i j : Nat) (hf : ∀ x, Sim m' F (f x) (g x) R) :
    Sim m' F (do let row ← hIdx (T := T) rowF o.data i; let x ← hIdx numF row j; f x)
      (do let row ← idx v.data i; let x ← idx row j; g x) R := by
  obtain ⟨hs, h1, h2⟩ := h.data
  have g1 : Sl rowF m' G o.data hs := h1.keep rowF_ok hk fun e => off_old _ _ e h1.mem h1.lt
  have g2 : Rows m' G hs.length hs v.data := h2.keep hk off_old
  refine Sim.bind (row_sim (G := F) g1 g2 i) (fun _ _ h => h) ?_
  rintro a d _ ⟨rfl, h3, -, -⟩ -
  refine Sim.bind (Sim.idx (G := F) h3 j) (fun _ _ h => h) ?_
  rintro x _ _ ⟨rfl, rfl⟩ -
  exact hf x

theorem columnsAt_sim (h : Own m G o v) (c : Int) :
    Sim m (fresh m.next) (o.columnsAt c : H T LDVec) (v.columnsAt c) (fun o' v' m' => LDVec.Own m' (fresh m.next) o' v') := by
  unfold LDense.columnsAt Dense.columnsAt
  rw [h.r, h.c]
  split
  swap
  · exact Sim.panic
  refine newD fun s m1 k1 hs => fillD k1 hs ?_
  intro i o1 v1 m2 k2 h2
  exact elem_sim h k2 _ _ fun x => putD k2 h2 _ _

theorem rowsAt_sim (h : Own m G o v) (r : Int) :
    Sim m (fresh m.next) (o.rowsAt r : H T LDVec) (v.rowsAt r) (fun o' v' m' => LDVec.Own m' (fresh m.next) o' v') := by
  unfold LDense.rowsAt Dense.rowsAt
  rw [h.r, h.c]
  split
  swap
  · exact Sim.panic
  refine newD fun s m1 k1 hs => fillD k1 hs ?_
  intro i o1 v1 m2 k2 h2
  exact elem_sim h k2 _ _ fun x => putD k2 h2 _ _

theorem rowsAtToArray_sim (h : Own m G o v) (r : Int) :
    Sim m (fresh m.next) (o.rowsAtToArray r : H T Slice) (v.rowsAtToArray r) (fun s l m' => Sl numF m' (fresh m.next) s l) := by
  unfold LDense.rowsAtToArray Dense.rowsAtToArray
  rw [h.r, h.c]
  split
  swap
  · exact Sim.panic
  refine allocA fun s m1 k1 hs => fillA k1 hs ?_
  intro i l1 m2 k2 h2
  exact elem_sim h k2 _ _ fun x => setA k2 h2 _ _

end LDense

/-! ## denseVector.go -/

namespace LDVec

variable {o : LDVec} {v : DVec T}

theorem columnsAt_sim (h : Own m G o v) (c : Int) :
    Sim m (fresh m.next) (o.columnsAt c : H T LDVec) (v.columnsAt c) (fun o' v' m' => LDVec.Own m' (fresh m.next) o' v') := by
  unfold LDVec.columnsAt DVec.columnsAt
  split
  · exact copy_sim (fun _ _ e => e) h
  · exact Sim.panic

theorem rowsAt_sim (h : Own m G o v) (r : Int) :
    Sim m (fresh m.next) (o.rowsAt r : H T LDVec) (v.rowsAt r) (fun o' v' m' => LDVec.Own m' (fresh m.next) o' v') := by
  unfold LDVec.rowsAt DVec.rowsAt
  rw [h.l]
  split
  swap
  · exact Sim.panic
  refine newD fun s m1 k1 hs => ?_
  refine Sim.bind (atVec_sim (G := fresh m.next) (h.keep k1 off_old) r) (fun _ _ h => h) ?_
  rintro x _ _ ⟨rfl, rfl⟩ -
  exact putD k1 hs _ _

theorem rowsAtToArray_sim (h : Own m G o v) (r : Int) :
    Sim m (fresh m.next) (o.rowsAtToArray r : H T Slice) (v.rowsAtToArray r) (fun s l m' => Sl numF m' (fresh m.next) s l) := by
  unfold LDVec.rowsAtToArray DVec.rowsAtToArray
  rw [h.l]
  split
  swap
  · exact Sim.panic
  refine allocA fun s m1 k1 hs => ?_
  refine Sim.bind (atVec_sim (G := fresh m.next) (h.keep k1 off_old) r) (fun _ _ h => h) ?_
  rintro x _ _ ⟨rfl, rfl⟩ -
  exact Sim.right'' (setA k1 hs 0 x) fun _ _ _ h => h

end LDVec

/-! ## sparseVector.go -/

namespace LSVec

variable {o : LSVec} {v : SVec T}

theorem columnsAt_sim (h : Own m G o v) (c : Int) :
    Sim m (fresh m.next) (o.columnsAt c : H T LSVec) (v.columnsAt c) (fun o' v' m' => LSVec.Own m' (fresh m.next) o' v') := by
  unfold LSVec.columnsAt SVec.columnsAt
  split
  · exact copy_sim (fun _ _ e => e) h
  · exact Sim.panic

theorem rowsAt_sim (h : Own m G o v) (r : Int) :
    Sim m (fresh m.next) (o.rowsAt r : H T LSVec) (v.rowsAt r) (fun o' v' m' => LSVec.Own m' (fresh m.next) o' v') := by
  unfold LSVec.rowsAt SVec.rowsAt
  rw [h.l]
  split
  swap
  · exact Sim.panic
  refine newS fun s m1 k1 hs => ?_
  refine Sim.bind (atVec_sim (G := fresh m.next) (h.keep k1 off_old) r) (fun _ _ h => h) ?_
  rintro x _ _ ⟨rfl, rfl⟩ -
  exact putS k1 hs _ _

theorem rowsAtToArray_sim (h : Own m G o v) (r : Int) :
    Sim m (fresh m.next) (o.rowsAtToArray r : H T Slice) (v.rowsAtToArray r) (fun s l m' => Sl numF m' (fresh m.next) s l) := by
  unfold LSVec.rowsAtToArray SVec.rowsAtToArray
  rw [h.l]
  split
  swap
  · exact Sim.panic
  refine allocA fun s m1 k1 hs => ?_
  refine Sim.bind (atVec_sim (G := fresh m.next) (h.keep k1 off_old) r) (fun _ _ h => h) ?_
  rintro x _ _ ⟨rfl, rfl⟩ -
  exact Sim.right'' (setA k1 hs 0 x) fun _ _ _ h => h

end LSVec

end GB.Share
