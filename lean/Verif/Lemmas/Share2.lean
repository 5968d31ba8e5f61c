import Verif.Lemmas.Share

/-!
# Each method in memory does what it does on values, inside its own arrays
-/

set_option linter.unusedSimpArgs false

namespace GB.Share

section
variable {T α β γ : Type} {m : Mem T} {F G : Tag → Nat → Prop}

theorem Sim.right {δ : Type} {x : H T α} {y : Out β} {g : β → δ} {R : α → β → Mem T → Prop} {R' : α → δ → Mem T → Prop}
    (h : Sim m F x y R) (hR : ∀ a b m', R a b m' → R' a (g b) m') : Sim m F x (y >>= fun b => .ok (g b)) R' := by
  show Sim m F x (Out.bind y _) R'
  unfold Sim at h ⊢
  revert h
  rcases x m with ⟨a, m'⟩ | m' | m' <;> rcases y with b | _ | _ <;> intro h <;> simp only [Out.bind] at h ⊢
  · exact ⟨hR _ _ _ h.1, h.2⟩
  · exact h
  · exact h

theorem Sim.right' {δ : Type} {x : H T α} {y : Out β} {g : β → δ} {R : α → β → Mem T → Prop} {R' : α → δ → Mem T → Prop}
    (h : Sim m G x y R) (hG : ∀ t a, G t a → F t a) (hR : ∀ a b m', R a b m' → m.Keeps m' G → R' a (g b) m') :
    Sim m F x (y >>= fun b => .ok (g b)) R' :=
  Sim.right (h.mono hG hR) fun _ _ _ h => h

theorem Sim.right'' {x : H T α} {y : Out β} {c : γ} {R : α → β → Mem T → Prop} {R' : γ → β → Mem T → Prop}
    (h : Sim m F x y R) (hR : ∀ a b m', R a b m' → R' c b m') : Sim m F (x >>= fun _ => Pure.pure c) y R' := by
  show Sim m F (H.bind x _) y R'
  unfold Sim at h ⊢
  unfold H.bind
  revert h
  rcases x m with ⟨a, m'⟩ | m' | m' <;> rcases y with b | _ | _ <;> intro h <;> simp only [pure_apply] at h ⊢
  · exact ⟨hR _ _ _ h.1, h.2⟩
  · exact h
  · exact h

end

variable {T : Type} [GoNum T] {m m' : Mem T} {F G : Tag → Nat → Prop}

/-! ## csrMatrix.go -/

/-- The object `o` holds the value `v`, in arrays of `F`. -/
structure LCSR.Own (m : Mem T) (F : Tag → Nat → Prop) (o : LCSR) (v : CSR T) : Prop where
  r : o.r = v.r
  c : o.c = v.c
  values : Sl numF m F o.values v.values
  cols : Sl intF m F o.cols v.cols
  rowStart : Sl intF m F o.rowStart v.rowStart
  ne : o.cols.arr ≠ o.rowStart.arr

namespace LCSR

variable {o : LCSR} {v : CSR T}

theorem Own.view (h : Own m F o v) : o.view m = .ok v m := by
  obtain ⟨h1, h2, h3, h4, h5, -⟩ := h
  unfold LCSR.view
  rw [h1, h2, h3.eq, h4.eq, h5.eq]

theorem Own.keep (h : Own m F o v) (k : m.Keeps m' G) (hG : ∀ t a, G t a → F t a → a < m.next → False) :
    Own m' F o v :=
  ⟨h.r, h.c, h.values.keep numF_ok k fun g => hG _ _ g h.values.mem h.values.lt,
    h.cols.keep intF_ok k fun g => hG _ _ g h.cols.mem h.cols.lt,
    h.rowStart.keep intF_ok k fun g => hG _ _ g h.rowStart.mem h.rowStart.lt, h.ne⟩

theorem Own.mono (h : Own m F o v) (hFG : ∀ t a, F t a → a < m.next → G t a) : Own m G o v :=
  ⟨h.r, h.c, ⟨hFG _ _ h.values.mem h.values.lt, h.values.lt, h.values.fit, h.values.eq⟩,
    ⟨hFG _ _ h.cols.mem h.cols.lt, h.cols.lt, h.cols.fit, h.cols.eq⟩,
    ⟨hFG _ _ h.rowStart.mem h.rowStart.lt, h.rowStart.lt, h.rowStart.fit, h.rowStart.eq⟩, h.ne⟩

theorem newL_sim (hF : ∀ t a, m.next ≤ a → F t a) (r c l : Nat) :
    Sim m (fresh m.next) (LCSR.newL r c l : H T LCSR) (.ok (CSR.newL r c l))
      (fun o v m' => Own m' F o v ∧ m.next ≤ o.values.arr ∧ m.next ≤ o.cols.arr ∧ m.next ≤ o.rowStart.arr) := by
  obtain ⟨m1, t1, e1, h1, a1, n1, -, -, k1⟩ := alloc_ok numF_ok (F := F) m (hF _ _ (le_refl _)) (List.replicate l (0 : T))
  obtain ⟨m2, t2, e2, h2, a2, n2, -, -, k2⟩ :=
    alloc_ok (intF_ok (T := T)) (F := F) m1 (hF _ _ (by omega)) (List.replicate l 0)
  obtain ⟨m3, t3, e3, h3, a3, n3, -, -, k3⟩ :=
    alloc_ok (intF_ok (T := T)) (F := F) m2 (hF _ _ (by omega)) (List.replicate (r + 1) 0)
  unfold LCSR.newL CSR.newL
  refine Sim.left e1 k1 (fun _ _ h => h) ?_
  refine Sim.left e2 k2 (fun _ _ h => by simp only [fresh] at *; omega) ?_
  refine Sim.left e3 k3 (fun _ _ h => by simp only [fresh] at *; omega) ?_
  refine Sim.pure ⟨⟨rfl, rfl, ?_, ?_, h3, ?_⟩, ?_, ?_, ?_⟩
  · exact (h1.keep numF_ok k2 (by simp only [fresh]; omega)).keep numF_ok k3 (by simp only [fresh]; omega)
  · exact h2.keep intF_ok k3 (by simp only [fresh]; omega)
  all_goals dsimp only; omega

omit [GoNum T] in
theorem bump_sim {s : Slice} {l : List Nat} (h : Sl intF m F s l) (f : Nat → Nat) (r sr : Nat) :
    Sim m (only .int s.arr m.next) (LCSR.bump f s r sr : H T Unit) (CSR.bump f l r sr) (fun _ l' m' => Sl intF m' F s l') := by
  unfold LCSR.bump CSR.bump
  refine (Sim.loop (R := fun _ l' m' => Sl intF m' F s l' ∧ m.next ≤ m'.next) _ _ ⟨h, le_refl _⟩ ?_).mono (fun _ _ h => h) fun _ _ _ h _ => h.1
  intro i u l' m' _ _ ⟨h', hn⟩
  refine Sim.bind (Sim.idx (G := only .int s.arr m.next) h' i) (fun _ _ h => h) ?_
  rintro a b m'' ⟨rfl, rfl⟩ -
  refine (Sim.set intF_ok h' i _).mono (fun t a ha => ?_) fun _ _ _ h _ => ⟨h.1, by rw [h.2]; exact hn⟩
  rcases ha with e | e
  · exact Or.inl e
  · exact Or.inr (by omega)

theorem insert_sim (hF : ∀ t a, m.next ≤ a → F t a) (h : Own m F o v) (p r c : Nat) (x : T) :
    Sim m F (o.insert p r c x) (v.insert p r c x) (fun o' q m' => Own m' F o' q.1) := by
  unfold LCSR.insert CSR.insert
  split
  · exact Sim.pure h
  · have c1 := h.cols.lt; have c2 := h.values.lt; have c3 := h.rowStart.lt; have c4 := h.ne
    refine Sim.bind (Sim.splice intF_ok hF h.cols p c) ?_ ?_
    · rintro t a (⟨rfl, rfl⟩ | e)
      · exact h.cols.mem
      · exact hF _ _ e
    intro s1 l1 m1 ⟨b1, d1⟩ k1
    have v1 := h.values.keep numF_ok k1 (by simp [only, numF, intF]; omega)
    have r1 := h.rowStart.keep intF_ok k1 (by simp [only, intF]; omega)
    have hF1 : ∀ t a, m1.next ≤ a → F t a := fun t a e => hF t a (by have := k1.1; omega)
    have c5 := b1.lt
    refine Sim.bind (Sim.splice numF_ok hF1 v1 p x) ?_ ?_
    · rintro t a (⟨rfl, rfl⟩ | e)
      · exact h.values.mem
      · exact hF1 _ _ e
    intro s2 l2 m2 ⟨b2, d2⟩ k2
    have b1' := b1.keep intF_ok k2 (by simp [only, numF, intF]; omega)
    have r2 := r1.keep intF_ok k2 (by have := r1.lt; simp [only, numF, intF]; omega)
    have hF2 : ∀ t a, m2.next ≤ a → F t a := fun t a e => hF1 t a (by have := k2.1; omega)
    have c6 := b1'.lt; have c7 := b2.lt
    rw [h.r]
    refine Sim.bind (bump_sim r2 _ r v.r) ?_ ?_
    · rintro t a (⟨rfl, rfl⟩ | e)
      · exact h.rowStart.mem
      · exact hF2 _ _ e
    intro _ l3 m3 b3 k3
    refine Sim.pure ⟨rfl, h.c, b2.keep numF_ok k3 (by simp [only, numF]; omega), b1'.keep intF_ok k3 ?_, b3, ?_⟩
    · simp only [only, intF, true_and, not_or, not_le]
      exact ⟨by omega, by omega⟩
    · dsimp only; omega

theorem remove_sim (hF : ∀ t a, m.next ≤ a → F t a) (h : Own m F o v) (p r : Nat) :
    Sim m F (o.remove p r : H T LCSR) (v.remove p r) (fun o' q m' => Own m' F o' q) := by
  unfold LCSR.remove CSR.remove
  have c1 := h.cols.lt; have c2 := h.values.lt; have c3 := h.rowStart.lt; have c4 := h.ne
  refine Sim.bind (Sim.unsplice intF_ok hF h.cols p) ?_ ?_
  · rintro t a (⟨rfl, rfl⟩ | e)
    · exact h.cols.mem
    · exact hF _ _ e
  intro s1 l1 m1 ⟨b1, d1⟩ k1
  have v1 := h.values.keep numF_ok k1 (by simp [only, numF, intF]; omega)
  have r1 := h.rowStart.keep intF_ok k1 (by simp [only, intF]; omega)
  have hF1 : ∀ t a, m1.next ≤ a → F t a := fun t a e => hF t a (by have := k1.1; omega)
  have c5 := b1.lt
  refine Sim.bind (Sim.unsplice numF_ok hF1 v1 p) ?_ ?_
  · rintro t a (⟨rfl, rfl⟩ | e)
    · exact h.values.mem
    · exact hF1 _ _ e
  intro s2 l2 m2 ⟨b2, d2⟩ k2
  have b1' := b1.keep intF_ok k2 (by simp [only, numF, intF]; omega)
  have r2 := r1.keep intF_ok k2 (by have := r1.lt; simp [only, numF, intF]; omega)
  have hF2 : ∀ t a, m2.next ≤ a → F t a := fun t a e => hF1 t a (by have := k2.1; omega)
  have c6 := b1'.lt; have c7 := b2.lt
  rw [h.r]
  refine Sim.bind (bump_sim r2 _ r v.r) ?_ ?_
  · rintro t a (⟨rfl, rfl⟩ | e)
    · exact h.rowStart.mem
    · exact hF2 _ _ e
  intro _ l3 m3 b3 k3
  refine Sim.pure ⟨rfl, h.c, b2.keep numF_ok k3 (by simp [only, numF]; omega), b1'.keep intF_ok k3 ?_, b3, ?_⟩
  · simp only [only, intF, true_and, not_or, not_le]
    exact ⟨by omega, by omega⟩
  · dsimp only; omega

theorem setValue_sim (hF : ∀ t a, m.next ≤ a → F t a) (h : Own m F o v) (i : Nat) (x : T) :
    Sim m F (do hSet numF o.values i x; pure o : H T LCSR)
      (do let values ← setIdx v.values i x; .ok { v with values := values }) (fun o' q m' => Own m' F o' q) := by
  refine Sim.bind (Sim.set numF_ok h.values i x) ?_ ?_
  · rintro t a (⟨rfl, rfl⟩ | e)
    · exact h.values.mem
    · exact hF _ _ e
  intro _ l' m' ⟨b, n⟩ k
  have c1 := h.cols.lt; have c3 := h.rowStart.lt
  exact Sim.pure ⟨h.r, h.c, b, h.cols.keep intF_ok k (by simp [only, intF, numF]; omega),
    h.rowStart.keep intF_ok k (by simp [only, intF, numF]; omega), h.ne⟩

theorem updateWith_sim {β : Type} (hF : ∀ t a, m.next ≤ a → F t a) (h : Own m F o v) (r c : Int) (f : T → β × T) :
    Sim m F (o.updateWith r c f) (v.updateWith r c f) (fun p q m' => p.1 = q.1 ∧ Own m' F p.2 q.2) := by
  unfold CSR.updateWith
  refine Sim.right (R := fun p q m' => p.1 = q.1 ∧ Own m' F p.2 q.2.1) ?_ fun _ _ _ h => h
  unfold LCSR.updateWith CSR.updateRP
  rw [h.r, h.c]
  split
  swap
  · exact Sim.panic
  split
  swap
  · exact Sim.panic
  refine Sim.left (G := F) h.view .refl (fun _ _ h => h) ?_
  refine Sim.bind (Sim.lift (F := F)) (fun _ _ h => h) ?_
  rintro ⟨ps, pe⟩ _ _ ⟨rfl, rfl⟩ -
  refine Sim.bind (Sim.lift (F := F)) (fun _ _ h => h) ?_
  rintro found _ _ ⟨rfl, rfl⟩ -
  cases found
  · simp only [Bool.false_eq_true, if_false]
    refine Sim.bind (insert_sim hF h _ _ _ _) (fun _ _ h => h) ?_
    intro o' q m' h' _
    exact Sim.pure ⟨rfl, h'⟩
  · simp only [if_true]
    refine Sim.bind (Sim.idx (G := F) h.values _) (fun _ _ h => h) ?_
    rintro old _ _ ⟨rfl, rfl⟩ -
    split
    · refine Sim.bind (remove_sim hF h _ _) (fun _ _ h => h) ?_
      intro o' q m' h' _
      exact Sim.pure ⟨rfl, h'⟩
    · refine Sim.bind (Sim.set numF_ok h.values ps _) ?_ ?_
      · rintro t a (⟨rfl, rfl⟩ | e)
        · exact h.values.mem
        · exact hF _ _ e
      intro _ l' m' ⟨b, n⟩ k
      have c1 := h.cols.lt; have c3 := h.rowStart.lt
      exact Sim.pure ⟨rfl, h.r, h.c, b, h.cols.keep intF_ok k (by simp [only, intF, numF]; omega),
        h.rowStart.keep intF_ok k (by simp [only, intF, numF]; omega), h.ne⟩

theorem clear_sim (hF : ∀ t a, m.next ≤ a → F t a) (h : Own m F o v) :
    Sim m F (o.clear : H T LCSR) (.ok v.clear) (fun o' q m' => Own m' F o' q) := by
  obtain ⟨m1, t1, e1, h1, a1, n1, -, -, k1⟩ := alloc_ok numF_ok (F := F) m (hF _ _ (le_refl _)) ([] : List T)
  obtain ⟨m2, t2, e2, h2, a2, n2, -, -, k2⟩ :=
    alloc_ok (intF_ok (T := T)) (F := F) m1 (hF _ _ (by omega)) []
  obtain ⟨m3, t3, e3, h3, a3, n3, -, -, k3⟩ :=
    alloc_ok (intF_ok (T := T)) (F := F) m2 (hF _ _ (by omega)) (List.replicate (o.r + 1) 0)
  unfold LCSR.clear CSR.clear
  refine Sim.left e1 k1 (fun _ _ h => hF _ _ h) ?_
  refine Sim.left e2 k2 (fun _ _ h => hF _ _ (by simp only [fresh] at *; omega)) ?_
  refine Sim.left e3 k3 (fun _ _ h => hF _ _ (by simp only [fresh] at *; omega)) ?_
  rw [h.r] at h3
  refine Sim.pure ⟨h.r, h.c, ?_, ?_, h3, ?_⟩
  · exact (h1.keep numF_ok k2 (by simp only [fresh]; omega)).keep numF_ok k3 (by simp only [fresh]; omega)
  · exact h2.keep intF_ok k3 (by simp only [fresh]; omega)
  · dsimp only; omega

theorem put_sim (hF : ∀ t a, m.next ≤ a → F t a) (h : Own m F o v) (it : CSR.Iter) (x : T) :
    Sim m F (o.put it x) (v.put it x) (fun o' q m' => Own m' F o' q) := by
  unfold LCSR.put CSR.put
  split
  · exact setValue_sim hF h _ _
  · exact remove_sim hF h _ _

/-- `Copy` reads the old object and writes only fresh arrays. -/
theorem copy_sim (hF : ∀ t a, m.next ≤ a → F t a) (h : Own m G o v) :
    Sim m (fresh m.next) (o.copy : H T LCSR) v.copy (fun o' q m' => Own m' F o' q) := by
  unfold LCSR.copy CSR.copy
  have c1 := h.cols.lt; have c2 := h.values.lt; have c3 := h.rowStart.lt
  rw [show v.values.length = o.values.len from h.values.length,
    show v.rowStart.length = o.rowStart.len from h.rowStart.length, h.r, h.c]
  have key : ∀ (n0 : LCSR) (v0 : CSR T) m0, Own m0 F n0 v0 → m.Keeps m0 (fresh m.next) →
      m.next ≤ n0.values.arr → m.next ≤ n0.cols.arr → m.next ≤ n0.rowStart.arr →
      Sim m0 (fresh m.next) (do
        hLoop o.values.len 0 (fun i _ => do
          let x ← hIdx numF o.values i
          hSet numF n0.values i x
          let y ← hIdx intF o.cols i
          hSet intF n0.cols i y) ()
        hLoop o.rowStart.len 0 (fun i _ => do
          let x ← hIdx intF o.rowStart i
          hSet intF n0.rowStart i x) ()
        pure n0 : H T LCSR) (do
        let m ← loop o.values.len 0 (fun i m => do
            let x ← idx v.values i
            let vals ← setIdx m.values i x
            let y ← idx v.cols i
            let cols ← setIdx m.cols i y
            .ok { m with values := vals, cols := cols }) v0
        loop o.rowStart.len 0 (fun i m => do
            let x ← idx v.rowStart i
            let rs ← setIdx m.rowStart i x
            .ok { m with rowStart := rs }) m) (fun o' q m' => Own m' F o' q) := by
    intro n0 v0 m0 h0 k0 d1 d2 d3
    have hfr : ∀ m', m.Keeps m' (fresh m.next) → Own m' G o v := fun m' k =>
      h.keep k fun t a ha _ hl => by simp only [fresh] at ha; omega
    refine Sim.bind (R := fun _ q m' => Own m' F n0 q ∧ m.Keeps m' (fresh m.next))
      (Sim.loop (F := fresh m.next) (R := fun _ q m' => Own m' F n0 q ∧ m.Keeps m' (fresh m.next)) _ _ ⟨h0, k0⟩ ?_)
      (fun _ _ h => h) ?_
    · intro i _ q m1 _ _ ⟨hq, kq⟩
      have hv := hfr _ kq
      refine Sim.bind (Sim.idx (G := fresh m.next) hv.values i) (fun _ _ h => h) ?_
      rintro x _ _ ⟨rfl, rfl⟩ -
      refine Sim.bind (Sim.set numF_ok hq.values i x) ?_ ?_
      · rintro t a (⟨rfl, rfl⟩ | e)
        · exact d1
        · exact kq.1.trans e
      rintro _ l' m2 ⟨b, n⟩ k2
      have k2' : m.Keeps m2 (fresh m.next) := kq.trans (k2.mono (by
        rintro t a (⟨rfl, rfl⟩ | e)
        · exact d1
        · exact kq.1.trans e))
      have hv2 := hfr _ k2'
      refine Sim.bind (Sim.idx (G := fresh m.next) hv2.cols i) (fun _ _ h => h) ?_
      rintro y _ _ ⟨rfl, em⟩ -
      rw [em]
      have e2 : Sl intF m2 F n0.cols q.cols := hq.cols.keep intF_ok k2 (by have := hq.cols.lt; simp [only, intF, numF]; omega)
      have e3 : Sl intF m2 F n0.rowStart q.rowStart :=
        hq.rowStart.keep intF_ok k2 (by have := hq.rowStart.lt; simp [only, intF, numF]; omega)
      refine Sim.right' (R := fun _ l m3 => Sl intF m3 F n0.cols l ∧ m3.next = m2.next)
        ((Sim.set intF_ok e2 i y)) ?_ ?_
      · rintro t a (⟨rfl, rfl⟩ | e)
        · exact d2
        · exact k2'.1.trans e
      rintro _ l3 m3 ⟨b3, n3⟩ k3
      refine ⟨⟨hq.r, hq.c, b.keep numF_ok k3 (by have := b.lt; simp [only, intF, numF]; omega), b3,
        e3.keep intF_ok k3 (by have := e3.lt; have := hq.ne; simp [only, intF]; omega), hq.ne⟩, ?_⟩
      refine k2'.trans (k3.mono ?_)
      rintro t a (⟨rfl, rfl⟩ | e)
      · exact d2
      · exact k2'.1.trans e
    · rintro _ q m1 ⟨hq, kq⟩ -
      refine Sim.right'' (R := fun _ q m' => Own m' F n0 q ∧ m.Keeps m' (fresh m.next))
        (Sim.loop (F := fresh m.next) (R := fun _ q m' => Own m' F n0 q ∧ m.Keeps m' (fresh m.next)) _ _ ⟨hq, kq⟩ ?_) fun _ _ _ h => h.1
      clear hq kq
      intro i _ q m1 _ _ ⟨hq, kq⟩
      have hv := hfr _ kq
      refine Sim.bind (Sim.idx (G := fresh m.next) hv.rowStart i) (fun _ _ h => h) ?_
      rintro x _ _ ⟨rfl, rfl⟩ -
      refine Sim.right' (R := fun _ l m3 => Sl intF m3 F n0.rowStart l ∧ m3.next = _)
        ((Sim.set intF_ok hq.rowStart i x)) ?_ ?_
      · rintro t a (⟨rfl, rfl⟩ | e)
        · exact d3
        · exact kq.1.trans e
      rintro _ l3 m3 ⟨b3, n3⟩ k3
      refine ⟨⟨hq.r, hq.c, hq.values.keep numF_ok k3 (by have := hq.values.lt; simp [only, intF, numF]; omega),
        hq.cols.keep intF_ok k3 (by have := hq.cols.lt; have := hq.ne; simp [only, intF]; omega), b3, hq.ne⟩, ?_⟩
      refine kq.trans (k3.mono ?_)
      rintro t a (⟨rfl, rfl⟩ | e)
      · exact d3
      · exact kq.1.trans e
  have hn := newL_sim (T := T) hF v.r v.c o.values.len
  unfold Sim at hn
  rcases hr : (LCSR.newL v.r v.c o.values.len : H T LCSR) m with ⟨n0, m0⟩ | m0 | m0 <;> rw [hr] at hn
  · exact Sim.left hr hn.2 (fun _ _ h => h) (key n0 _ m0 hn.1.1 hn.2 hn.1.2.1 hn.1.2.2.1 hn.1.2.2.2)
  · exact hn.elim
  · exact hn.elim

end LCSR

/-! ## cscMatrix.go -/

/-- The object `o` holds the value `v`, in arrays of `F`. -/
structure LCSC.Own (m : Mem T) (F : Tag → Nat → Prop) (o : LCSC) (v : CSC T) : Prop where
  r : o.r = v.r
  c : o.c = v.c
  values : Sl numF m F o.values v.values
  rows : Sl intF m F o.rows v.rows
  colStart : Sl intF m F o.colStart v.colStart
  ne : o.rows.arr ≠ o.colStart.arr

namespace LCSC

variable {o : LCSC} {v : CSC T}

theorem Own.view (h : Own m F o v) : o.view m = .ok v m := by
  obtain ⟨h1, h2, h3, h4, h5, -⟩ := h
  unfold LCSC.view
  rw [h1, h2, h3.eq, h4.eq, h5.eq]

theorem Own.keep (h : Own m F o v) (k : m.Keeps m' G) (hG : ∀ t a, G t a → F t a → a < m.next → False) :
    Own m' F o v :=
  ⟨h.r, h.c, h.values.keep numF_ok k fun g => hG _ _ g h.values.mem h.values.lt,
    h.rows.keep intF_ok k fun g => hG _ _ g h.rows.mem h.rows.lt,
    h.colStart.keep intF_ok k fun g => hG _ _ g h.colStart.mem h.colStart.lt, h.ne⟩

theorem Own.mono (h : Own m F o v) (hFG : ∀ t a, F t a → a < m.next → G t a) : Own m G o v :=
  ⟨h.r, h.c, ⟨hFG _ _ h.values.mem h.values.lt, h.values.lt, h.values.fit, h.values.eq⟩,
    ⟨hFG _ _ h.rows.mem h.rows.lt, h.rows.lt, h.rows.fit, h.rows.eq⟩,
    ⟨hFG _ _ h.colStart.mem h.colStart.lt, h.colStart.lt, h.colStart.fit, h.colStart.eq⟩, h.ne⟩

theorem newL_sim (hF : ∀ t a, m.next ≤ a → F t a) (r c l : Nat) :
    Sim m (fresh m.next) (LCSC.newL r c l : H T LCSC) (.ok (CSC.newL r c l))
      (fun o v m' => Own m' F o v ∧ m.next ≤ o.values.arr ∧ m.next ≤ o.rows.arr ∧ m.next ≤ o.colStart.arr) := by
  obtain ⟨m1, t1, e1, h1, a1, n1, -, -, k1⟩ := alloc_ok numF_ok (F := F) m (hF _ _ (le_refl _)) (List.replicate l (0 : T))
  obtain ⟨m2, t2, e2, h2, a2, n2, -, -, k2⟩ :=
    alloc_ok (intF_ok (T := T)) (F := F) m1 (hF _ _ (by omega)) (List.replicate l 0)
  obtain ⟨m3, t3, e3, h3, a3, n3, -, -, k3⟩ :=
    alloc_ok (intF_ok (T := T)) (F := F) m2 (hF _ _ (by omega)) (List.replicate (c + 1) 0)
  unfold LCSC.newL CSC.newL
  refine Sim.left e1 k1 (fun _ _ h => h) ?_
  refine Sim.left e2 k2 (fun _ _ h => by simp only [fresh] at *; omega) ?_
  refine Sim.left e3 k3 (fun _ _ h => by simp only [fresh] at *; omega) ?_
  refine Sim.pure ⟨⟨rfl, rfl, ?_, ?_, h3, ?_⟩, ?_, ?_, ?_⟩
  · exact (h1.keep numF_ok k2 (by simp only [fresh]; omega)).keep numF_ok k3 (by simp only [fresh]; omega)
  · exact h2.keep intF_ok k3 (by simp only [fresh]; omega)
  all_goals dsimp only; omega

omit [GoNum T] in
theorem bump_sim {s : Slice} {l : List Nat} (h : Sl intF m F s l) (f : Nat → Nat) (r sr : Nat) :
    Sim m (only .int s.arr m.next) (LCSC.bump f s r sr : H T Unit) (CSC.bump f l r sr) (fun _ l' m' => Sl intF m' F s l') := by
  unfold LCSC.bump CSC.bump
  refine (Sim.loop (R := fun _ l' m' => Sl intF m' F s l' ∧ m.next ≤ m'.next) _ _ ⟨h, le_refl _⟩ ?_).mono (fun _ _ h => h) fun _ _ _ h _ => h.1
  intro i u l' m' _ _ ⟨h', hn⟩
  refine Sim.bind (Sim.idx (G := only .int s.arr m.next) h' i) (fun _ _ h => h) ?_
  rintro a b m'' ⟨rfl, rfl⟩ -
  refine (Sim.set intF_ok h' i _).mono (fun t a ha => ?_) fun _ _ _ h _ => ⟨h.1, by rw [h.2]; exact hn⟩
  rcases ha with e | e
  · exact Or.inl e
  · exact Or.inr (by omega)

theorem insert_sim (hF : ∀ t a, m.next ≤ a → F t a) (h : Own m F o v) (p r c : Nat) (x : T) :
    Sim m F (o.insert p r c x) (v.insert p r c x) (fun o' q m' => Own m' F o' q.1) := by
  unfold LCSC.insert CSC.insert
  split
  · exact Sim.pure h
  · have c1 := h.rows.lt; have c2 := h.values.lt; have c3 := h.colStart.lt; have c4 := h.ne
    refine Sim.bind (Sim.splice intF_ok hF h.rows p r) ?_ ?_
    · rintro t a (⟨rfl, rfl⟩ | e)
      · exact h.rows.mem
      · exact hF _ _ e
    intro s1 l1 m1 ⟨b1, d1⟩ k1
    have v1 := h.values.keep numF_ok k1 (by simp [only, numF, intF]; omega)
    have r1 := h.colStart.keep intF_ok k1 (by simp [only, intF]; omega)
    have hF1 : ∀ t a, m1.next ≤ a → F t a := fun t a e => hF t a (by have := k1.1; omega)
    have c5 := b1.lt
    refine Sim.bind (Sim.splice numF_ok hF1 v1 p x) ?_ ?_
    · rintro t a (⟨rfl, rfl⟩ | e)
      · exact h.values.mem
      · exact hF1 _ _ e
    intro s2 l2 m2 ⟨b2, d2⟩ k2
    have b1' := b1.keep intF_ok k2 (by simp [only, numF, intF]; omega)
    have r2 := r1.keep intF_ok k2 (by have := r1.lt; simp [only, numF, intF]; omega)
    have hF2 : ∀ t a, m2.next ≤ a → F t a := fun t a e => hF1 t a (by have := k2.1; omega)
    have c6 := b1'.lt; have c7 := b2.lt
    rw [h.c]
    refine Sim.bind (bump_sim r2 _ c v.c) ?_ ?_
    · rintro t a (⟨rfl, rfl⟩ | e)
      · exact h.colStart.mem
      · exact hF2 _ _ e
    intro _ l3 m3 b3 k3
    refine Sim.pure ⟨h.r, rfl, b2.keep numF_ok k3 (by simp [only, numF]; omega), b1'.keep intF_ok k3 ?_, b3, ?_⟩
    · simp only [only, intF, true_and, not_or, not_le]
      exact ⟨by omega, by omega⟩
    · dsimp only; omega

theorem remove_sim (hF : ∀ t a, m.next ≤ a → F t a) (h : Own m F o v) (p c : Nat) :
    Sim m F (o.remove p c : H T LCSC) (v.remove p c) (fun o' q m' => Own m' F o' q) := by
  unfold LCSC.remove CSC.remove
  have c1 := h.rows.lt; have c2 := h.values.lt; have c3 := h.colStart.lt; have c4 := h.ne
  refine Sim.bind (Sim.unsplice intF_ok hF h.rows p) ?_ ?_
  · rintro t a (⟨rfl, rfl⟩ | e)
    · exact h.rows.mem
    · exact hF _ _ e
  intro s1 l1 m1 ⟨b1, d1⟩ k1
  have v1 := h.values.keep numF_ok k1 (by simp [only, numF, intF]; omega)
  have r1 := h.colStart.keep intF_ok k1 (by simp [only, intF]; omega)
  have hF1 : ∀ t a, m1.next ≤ a → F t a := fun t a e => hF t a (by have := k1.1; omega)
  have c5 := b1.lt
  refine Sim.bind (Sim.unsplice numF_ok hF1 v1 p) ?_ ?_
  · rintro t a (⟨rfl, rfl⟩ | e)
    · exact h.values.mem
    · exact hF1 _ _ e
  intro s2 l2 m2 ⟨b2, d2⟩ k2
  have b1' := b1.keep intF_ok k2 (by simp [only, numF, intF]; omega)
  have r2 := r1.keep intF_ok k2 (by have := r1.lt; simp [only, numF, intF]; omega)
  have hF2 : ∀ t a, m2.next ≤ a → F t a := fun t a e => hF1 t a (by have := k2.1; omega)
  have c6 := b1'.lt; have c7 := b2.lt
  rw [h.c]
  refine Sim.bind (bump_sim r2 _ c v.c) ?_ ?_
  · rintro t a (⟨rfl, rfl⟩ | e)
    · exact h.colStart.mem
    · exact hF2 _ _ e
  intro _ l3 m3 b3 k3
  refine Sim.pure ⟨h.r, rfl, b2.keep numF_ok k3 (by simp [only, numF]; omega), b1'.keep intF_ok k3 ?_, b3, ?_⟩
  · simp only [only, intF, true_and, not_or, not_le]
    exact ⟨by omega, by omega⟩
  · dsimp only; omega

theorem setValue_sim (hF : ∀ t a, m.next ≤ a → F t a) (h : Own m F o v) (i : Nat) (x : T) :
    Sim m F (do hSet numF o.values i x; pure o : H T LCSC)
      (do let values ← setIdx v.values i x; .ok { v with values := values }) (fun o' q m' => Own m' F o' q) := by
  refine Sim.bind (Sim.set numF_ok h.values i x) ?_ ?_
  · rintro t a (⟨rfl, rfl⟩ | e)
    · exact h.values.mem
    · exact hF _ _ e
  intro _ l' m' ⟨b, n⟩ k
  have c1 := h.rows.lt; have c3 := h.colStart.lt
  exact Sim.pure ⟨h.r, h.c, b, h.rows.keep intF_ok k (by simp [only, intF, numF]; omega),
    h.colStart.keep intF_ok k (by simp [only, intF, numF]; omega), h.ne⟩

theorem updateWith_sim {β : Type} (hF : ∀ t a, m.next ≤ a → F t a) (h : Own m F o v) (r c : Int) (f : T → β × T) :
    Sim m F (o.updateWith r c f) (v.updateWith r c f) (fun p q m' => p.1 = q.1 ∧ Own m' F p.2 q.2) := by
  unfold CSC.updateWith
  refine Sim.right (R := fun p q m' => p.1 = q.1 ∧ Own m' F p.2 q.2.1) ?_ fun _ _ _ h => h
  unfold LCSC.updateWith CSC.updateRP
  rw [h.r, h.c]
  split
  swap
  · exact Sim.panic
  split
  swap
  · exact Sim.panic
  refine Sim.left (G := F) h.view .refl (fun _ _ h => h) ?_
  refine Sim.bind (Sim.lift (F := F)) (fun _ _ h => h) ?_
  rintro ⟨ps, pe⟩ _ _ ⟨rfl, rfl⟩ -
  refine Sim.bind (Sim.lift (F := F)) (fun _ _ h => h) ?_
  rintro found _ _ ⟨rfl, rfl⟩ -
  cases found
  · simp only [Bool.false_eq_true, if_false]
    refine Sim.bind (insert_sim hF h _ _ _ _) (fun _ _ h => h) ?_
    intro o' q m' h' _
    exact Sim.pure ⟨rfl, h'⟩
  · simp only [if_true]
    refine Sim.bind (Sim.idx (G := F) h.values _) (fun _ _ h => h) ?_
    rintro old _ _ ⟨rfl, rfl⟩ -
    split
    · refine Sim.bind (remove_sim hF h _ _) (fun _ _ h => h) ?_
      intro o' q m' h' _
      exact Sim.pure ⟨rfl, h'⟩
    · refine Sim.bind (Sim.set numF_ok h.values ps _) ?_ ?_
      · rintro t a (⟨rfl, rfl⟩ | e)
        · exact h.values.mem
        · exact hF _ _ e
      intro _ l' m' ⟨b, n⟩ k
      have c1 := h.rows.lt; have c3 := h.colStart.lt
      exact Sim.pure ⟨rfl, h.r, h.c, b, h.rows.keep intF_ok k (by simp [only, intF, numF]; omega),
        h.colStart.keep intF_ok k (by simp [only, intF, numF]; omega), h.ne⟩

theorem clear_sim (hF : ∀ t a, m.next ≤ a → F t a) (h : Own m F o v) :
    Sim m F (o.clear : H T LCSC) (.ok v.clear) (fun o' q m' => Own m' F o' q) := by
  obtain ⟨m1, t1, e1, h1, a1, n1, -, -, k1⟩ := alloc_ok numF_ok (F := F) m (hF _ _ (le_refl _)) ([] : List T)
  obtain ⟨m2, t2, e2, h2, a2, n2, -, -, k2⟩ :=
    alloc_ok (intF_ok (T := T)) (F := F) m1 (hF _ _ (by omega)) []
  obtain ⟨m3, t3, e3, h3, a3, n3, -, -, k3⟩ :=
    alloc_ok (intF_ok (T := T)) (F := F) m2 (hF _ _ (by omega)) (List.replicate (o.c + 1) 0)
  unfold LCSC.clear CSC.clear
  refine Sim.left e1 k1 (fun _ _ h => hF _ _ h) ?_
  refine Sim.left e2 k2 (fun _ _ h => hF _ _ (by simp only [fresh] at *; omega)) ?_
  refine Sim.left e3 k3 (fun _ _ h => hF _ _ (by simp only [fresh] at *; omega)) ?_
  rw [h.c] at h3
  refine Sim.pure ⟨h.r, h.c, ?_, ?_, h3, ?_⟩
  · exact (h1.keep numF_ok k2 (by simp only [fresh]; omega)).keep numF_ok k3 (by simp only [fresh]; omega)
  · exact h2.keep intF_ok k3 (by simp only [fresh]; omega)
  · dsimp only; omega

theorem put_sim (hF : ∀ t a, m.next ≤ a → F t a) (h : Own m F o v) (it : CSC.Iter) (x : T) :
    Sim m F (o.put it x) (v.put it x) (fun o' q m' => Own m' F o' q) := by
  unfold LCSC.put CSC.put
  split
  · exact setValue_sim hF h _ _
  · exact remove_sim hF h _ _

/-- `Copy` reads the old object and writes only fresh arrays. -/
theorem copy_sim (hF : ∀ t a, m.next ≤ a → F t a) (h : Own m G o v) :
    Sim m (fresh m.next) (o.copy : H T LCSC) v.copy (fun o' q m' => Own m' F o' q) := by
  unfold LCSC.copy CSC.copy
  have c1 := h.rows.lt; have c2 := h.values.lt; have c3 := h.colStart.lt
  rw [show v.values.length = o.values.len from h.values.length,
    show v.colStart.length = o.colStart.len from h.colStart.length, h.r, h.c]
  have key : ∀ (n0 : LCSC) (v0 : CSC T) m0, Own m0 F n0 v0 → m.Keeps m0 (fresh m.next) →
      m.next ≤ n0.values.arr → m.next ≤ n0.rows.arr → m.next ≤ n0.colStart.arr →
      Sim m0 (fresh m.next) (do
        hLoop o.values.len 0 (fun i _ => do
          let x ← hIdx numF o.values i
          hSet numF n0.values i x
          let y ← hIdx intF o.rows i
          hSet intF n0.rows i y) ()
        hLoop o.colStart.len 0 (fun i _ => do
          let x ← hIdx intF o.colStart i
          hSet intF n0.colStart i x) ()
        pure n0 : H T LCSC) (do
        let m ← loop o.values.len 0 (fun i m => do
            let x ← idx v.values i
            let vals ← setIdx m.values i x
            let y ← idx v.rows i
            let rows ← setIdx m.rows i y
            .ok { m with values := vals, rows := rows }) v0
        loop o.colStart.len 0 (fun i m => do
            let x ← idx v.colStart i
            let rs ← setIdx m.colStart i x
            .ok { m with colStart := rs }) m) (fun o' q m' => Own m' F o' q) := by
    intro n0 v0 m0 h0 k0 d1 d2 d3
    have hfr : ∀ m', m.Keeps m' (fresh m.next) → Own m' G o v := fun m' k =>
      h.keep k fun t a ha _ hl => by simp only [fresh] at ha; omega
    refine Sim.bind (R := fun _ q m' => Own m' F n0 q ∧ m.Keeps m' (fresh m.next))
      (Sim.loop (F := fresh m.next) (R := fun _ q m' => Own m' F n0 q ∧ m.Keeps m' (fresh m.next)) _ _ ⟨h0, k0⟩ ?_)
      (fun _ _ h => h) ?_
    · intro i _ q m1 _ _ ⟨hq, kq⟩
      have hv := hfr _ kq
      refine Sim.bind (Sim.idx (G := fresh m.next) hv.values i) (fun _ _ h => h) ?_
      rintro x _ _ ⟨rfl, rfl⟩ -
      refine Sim.bind (Sim.set numF_ok hq.values i x) ?_ ?_
      · rintro t a (⟨rfl, rfl⟩ | e)
        · exact d1
        · exact kq.1.trans e
      rintro _ l' m2 ⟨b, n⟩ k2
      have k2' : m.Keeps m2 (fresh m.next) := kq.trans (k2.mono (by
        rintro t a (⟨rfl, rfl⟩ | e)
        · exact d1
        · exact kq.1.trans e))
      have hv2 := hfr _ k2'
      refine Sim.bind (Sim.idx (G := fresh m.next) hv2.rows i) (fun _ _ h => h) ?_
      rintro y _ _ ⟨rfl, em⟩ -
      rw [em]
      have e2 : Sl intF m2 F n0.rows q.rows := hq.rows.keep intF_ok k2 (by have := hq.rows.lt; simp [only, intF, numF]; omega)
      have e3 : Sl intF m2 F n0.colStart q.colStart :=
        hq.colStart.keep intF_ok k2 (by have := hq.colStart.lt; simp [only, intF, numF]; omega)
      refine Sim.right' (R := fun _ l m3 => Sl intF m3 F n0.rows l ∧ m3.next = m2.next)
        ((Sim.set intF_ok e2 i y)) ?_ ?_
      · rintro t a (⟨rfl, rfl⟩ | e)
        · exact d2
        · exact k2'.1.trans e
      rintro _ l3 m3 ⟨b3, n3⟩ k3
      refine ⟨⟨hq.r, hq.c, b.keep numF_ok k3 (by have := b.lt; simp [only, intF, numF]; omega), b3,
        e3.keep intF_ok k3 (by have := e3.lt; have := hq.ne; simp [only, intF]; omega), hq.ne⟩, ?_⟩
      refine k2'.trans (k3.mono ?_)
      rintro t a (⟨rfl, rfl⟩ | e)
      · exact d2
      · exact k2'.1.trans e
    · rintro _ q m1 ⟨hq, kq⟩ -
      refine Sim.right'' (R := fun _ q m' => Own m' F n0 q ∧ m.Keeps m' (fresh m.next))
        (Sim.loop (F := fresh m.next) (R := fun _ q m' => Own m' F n0 q ∧ m.Keeps m' (fresh m.next)) _ _ ⟨hq, kq⟩ ?_) fun _ _ _ h => h.1
      clear hq kq
      intro i _ q m1 _ _ ⟨hq, kq⟩
      have hv := hfr _ kq
      refine Sim.bind (Sim.idx (G := fresh m.next) hv.colStart i) (fun _ _ h => h) ?_
      rintro x _ _ ⟨rfl, rfl⟩ -
      refine Sim.right' (R := fun _ l m3 => Sl intF m3 F n0.colStart l ∧ m3.next = _)
        ((Sim.set intF_ok hq.colStart i x)) ?_ ?_
      · rintro t a (⟨rfl, rfl⟩ | e)
        · exact d3
        · exact kq.1.trans e
      rintro _ l3 m3 ⟨b3, n3⟩ k3
      refine ⟨⟨hq.r, hq.c, hq.values.keep numF_ok k3 (by have := hq.values.lt; simp [only, intF, numF]; omega),
        hq.rows.keep intF_ok k3 (by have := hq.rows.lt; have := hq.ne; simp [only, intF]; omega), b3, hq.ne⟩, ?_⟩
      refine kq.trans (k3.mono ?_)
      rintro t a (⟨rfl, rfl⟩ | e)
      · exact d3
      · exact kq.1.trans e
  have hn := newL_sim (T := T) hF v.r v.c o.values.len
  unfold Sim at hn
  rcases hr : (LCSC.newL v.r v.c o.values.len : H T LCSC) m with ⟨n0, m0⟩ | m0 | m0 <;> rw [hr] at hn
  · exact Sim.left hr hn.2 (fun _ _ h => h) (key n0 _ m0 hn.1.1 hn.2 hn.1.2.1 hn.1.2.2.1 hn.1.2.2.2)
  · exact hn.elim
  · exact hn.elim

end LCSC

end GB.Share
