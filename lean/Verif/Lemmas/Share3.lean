import Verif.Lemmas.Share2

/-!
# Vectors and dense matrices in memory
-/

set_option linter.unusedSimpArgs false

namespace GB.Share

variable {T : Type} [GoNum T] {m m' : Mem T} {F G : Tag → Nat → Prop}

/-! ## sparseVector.go -/

/-- The object `o` holds the value `v`, in arrays of `F`. -/
structure LSVec.Own (m : Mem T) (F : Tag → Nat → Prop) (o : LSVec) (v : SVec T) : Prop where
  l : o.l = v.l
  values : Sl numF m F o.values v.values
  indices : Sl intF m F o.indices v.indices

namespace LSVec

variable {o : LSVec} {v : SVec T}

theorem Own.view (h : Own m F o v) : o.view m = .ok v m := by
  obtain ⟨h1, h3, h4⟩ := h
  unfold LSVec.view
  rw [h1, h3.eq, h4.eq]

theorem Own.keep (h : Own m F o v) (k : m.Keeps m' G) (hG : ∀ t a, G t a → F t a → a < m.next → False) :
    Own m' F o v :=
  ⟨h.l, h.values.keep numF_ok k fun g => hG _ _ g h.values.mem h.values.lt,
    h.indices.keep intF_ok k fun g => hG _ _ g h.indices.mem h.indices.lt⟩

theorem Own.mono (h : Own m F o v) (hFG : ∀ t a, F t a → a < m.next → G t a) : Own m G o v :=
  ⟨h.l, ⟨hFG _ _ h.values.mem h.values.lt, h.values.lt, h.values.fit, h.values.eq⟩,
    ⟨hFG _ _ h.indices.mem h.indices.lt, h.indices.lt, h.indices.fit, h.indices.eq⟩⟩

theorem newL_sim (hF : ∀ t a, m.next ≤ a → F t a) (l n : Nat) :
    Sim m (fresh m.next) (LSVec.newL l n : H T LSVec) (.ok (SVec.newL l n))
      (fun o v m' => Own m' F o v ∧ m.next ≤ o.values.arr ∧ m.next ≤ o.indices.arr) := by
  obtain ⟨m1, t1, e1, h1, a1, n1, -, -, k1⟩ := alloc_ok numF_ok (F := F) m (hF _ _ (le_refl _)) (List.replicate n (0 : T))
  obtain ⟨m2, t2, e2, h2, a2, n2, -, -, k2⟩ :=
    alloc_ok (intF_ok (T := T)) (F := F) m1 (hF _ _ (by omega)) (List.replicate n 0)
  unfold LSVec.newL SVec.newL
  refine Sim.left e1 k1 (fun _ _ h => h) ?_
  refine Sim.left e2 k2 (fun _ _ h => by simp only [fresh] at *; omega) ?_
  refine Sim.pure ⟨⟨rfl, ?_, h2⟩, ?_, ?_⟩
  · exact h1.keep numF_ok k2 (by simp only [fresh]; omega)
  all_goals dsimp only; omega

theorem insert_sim (hF : ∀ t a, m.next ≤ a → F t a) (h : Own m F o v) (p i : Nat) (x : T) :
    Sim m F (o.insert p i x) (v.insert p i x) (fun o' q m' => Own m' F o' q) := by
  unfold LSVec.insert SVec.insert
  split
  · exact Sim.pure h
  · have c1 := h.indices.lt; have c2 := h.values.lt
    refine Sim.bind (Sim.splice intF_ok hF h.indices p i) ?_ ?_
    · rintro t a (⟨rfl, rfl⟩ | e)
      · exact h.indices.mem
      · exact hF _ _ e
    intro s1 l1 m1 ⟨b1, d1⟩ k1
    have v1 := h.values.keep numF_ok k1 (by simp [only, numF, intF]; omega)
    have hF1 : ∀ t a, m1.next ≤ a → F t a := fun t a e => hF t a (by have := k1.1; omega)
    have c5 := b1.lt
    refine Sim.bind (Sim.splice numF_ok hF1 v1 p x) ?_ ?_
    · rintro t a (⟨rfl, rfl⟩ | e)
      · exact h.values.mem
      · exact hF1 _ _ e
    intro s2 l2 m2 ⟨b2, d2⟩ k2
    exact Sim.pure ⟨h.l, b2, b1.keep intF_ok k2 (by simp [only, numF, intF]; omega)⟩

theorem remove_sim (hF : ∀ t a, m.next ≤ a → F t a) (h : Own m F o v) (p : Nat) :
    Sim m F (o.remove p : H T LSVec) (v.remove p) (fun o' q m' => Own m' F o' q) := by
  unfold LSVec.remove SVec.remove
  have c1 := h.indices.lt; have c2 := h.values.lt
  refine Sim.bind (Sim.unsplice intF_ok hF h.indices p) ?_ ?_
  · rintro t a (⟨rfl, rfl⟩ | e)
    · exact h.indices.mem
    · exact hF _ _ e
  intro s1 l1 m1 ⟨b1, d1⟩ k1
  have v1 := h.values.keep numF_ok k1 (by simp [only, numF, intF]; omega)
  have hF1 : ∀ t a, m1.next ≤ a → F t a := fun t a e => hF t a (by have := k1.1; omega)
  have c5 := b1.lt
  refine Sim.bind (Sim.unsplice numF_ok hF1 v1 p) ?_ ?_
  · rintro t a (⟨rfl, rfl⟩ | e)
    · exact h.values.mem
    · exact hF1 _ _ e
  intro s2 l2 m2 ⟨b2, d2⟩ k2
  exact Sim.pure ⟨h.l, b2, b1.keep intF_ok k2 (by simp [only, numF, intF]; omega)⟩

theorem setValue_sim (hF : ∀ t a, m.next ≤ a → F t a) (h : Own m F o v) (i : Nat) (x : T) :
    Sim m F (do hSet numF o.values i x; pure o : H T LSVec)
      (do let values ← setIdx v.values i x; .ok { v with values := values }) (fun o' q m' => Own m' F o' q) := by
  refine Sim.bind (Sim.set numF_ok h.values i x) ?_ ?_
  · rintro t a (⟨rfl, rfl⟩ | e)
    · exact h.values.mem
    · exact hF _ _ e
  intro _ l' m' ⟨b, n⟩ k
  have c1 := h.indices.lt
  exact Sim.pure ⟨h.l, b, h.indices.keep intF_ok k (by simp [only, intF, numF]; omega)⟩

theorem atVec_sim (h : Own m F o v) (i : Int) :
    Sim m G (o.atVec i) (v.atVec i) (fun a b m' => a = b ∧ m' = m) := by
  unfold LSVec.atVec
  exact Sim.left (G := G) h.view .refl (fun _ _ h => h) Sim.lift

theorem setVec_sim (hF : ∀ t a, m.next ≤ a → F t a) (h : Own m F o v) (i : Int) (x : T) :
    Sim m F (o.setVec i x) (v.setVec i x) (fun o' q m' => Own m' F o' q) := by
  unfold LSVec.setVec SVec.setVec
  rw [h.l]
  split
  swap
  · exact Sim.panic
  refine Sim.left (G := F) h.view .refl (fun _ _ h => h) ?_
  refine Sim.bind (Sim.lift (F := F)) (fun _ _ h => h) ?_
  rintro ⟨p, len⟩ _ _ ⟨rfl, rfl⟩ -
  dsimp only
  split
  swap
  · exact insert_sim hF h _ _ _
  refine Sim.bind (Sim.idx (G := F) h.indices _) (fun _ _ h => h) ?_
  rintro y _ _ ⟨rfl, rfl⟩ -
  split
  swap
  · exact insert_sim hF h _ _ _
  split
  · exact remove_sim hF h _
  · exact setValue_sim hF h _ _

theorem updateWith_sim {β : Type} (hF : ∀ t a, m.next ≤ a → F t a) (h : Own m F o v) (r c : Int) (f : T → β × T) :
    Sim m F (o.updateWith r c f) (v.updateWith r c f) (fun p q m' => p.1 = q.1 ∧ Own m' F p.2 q.2) := by
  unfold LSVec.updateWith SVec.updateWith
  rw [h.l]
  split
  swap
  · exact Sim.panic
  split
  swap
  · exact Sim.panic
  refine Sim.bind (atVec_sim (G := F) h r) (fun _ _ h => h) ?_
  rintro x _ _ ⟨rfl, rfl⟩ -
  refine Sim.bind (setVec_sim hF h r _) (fun _ _ h => h) ?_
  intro o' q m' h' _
  exact Sim.pure ⟨rfl, h'⟩

theorem set_sim (hF : ∀ t a, m.next ≤ a → F t a) (h : Own m F o v) (r c : Int) (x : T) :
    Sim m F (o.set r c x) (v.set r c x) (fun o' q m' => Own m' F o' q) := by
  unfold LSVec.set SVec.set
  rw [h.l]
  split
  swap
  · exact Sim.panic
  split
  swap
  · exact Sim.panic
  exact setVec_sim hF h r x

theorem element_sim (h : Own m F o v) (r c : Int) :
    Sim m G (o.element (T := T) r) (v.element r c) (fun a b m' => a = b ∧ m' = m) := by
  unfold LSVec.element SVec.element
  refine Sim.bind (atVec_sim (G := G) h r) (fun _ _ h => h) ?_
  rintro x _ _ ⟨rfl, rfl⟩ -
  exact Sim.pure ⟨rfl, rfl⟩

theorem clear_sim (hF : ∀ t a, m.next ≤ a → F t a) (h : Own m F o v) :
    Sim m F (o.clear : H T LSVec) (.ok v.clear) (fun o' q m' => Own m' F o' q) := by
  obtain ⟨m1, t1, e1, h1, a1, n1, -, -, k1⟩ := alloc_ok numF_ok (F := F) m (hF _ _ (le_refl _)) ([] : List T)
  obtain ⟨m2, t2, e2, h2, a2, n2, -, -, k2⟩ :=
    alloc_ok (intF_ok (T := T)) (F := F) m1 (hF _ _ (by omega)) []
  unfold LSVec.clear SVec.clear
  refine Sim.left e1 k1 (fun _ _ h => hF _ _ h) ?_
  refine Sim.left e2 k2 (fun _ _ h => hF _ _ (by simp only [fresh] at *; omega)) ?_
  exact Sim.pure ⟨h.l, h1.keep numF_ok k2 (by simp only [fresh]; omega), h2⟩

theorem put_sim (hF : ∀ t a, m.next ≤ a → F t a) (h : Own m F o v) (it : SVec.Iter) (x : T) :
    Sim m F (o.put it x) (v.put it x) (fun o' q m' => Own m' F o' q) := by
  unfold LSVec.put SVec.put
  split
  · exact setValue_sim hF h _ _
  · exact remove_sim hF h _

theorem copy_sim (hF : ∀ t a, m.next ≤ a → F t a) (h : Own m G o v) :
    Sim m (fresh m.next) (o.copy : H T LSVec) v.copy (fun o' q m' => Own m' F o' q) := by
  unfold LSVec.copy SVec.copy
  have c1 := h.indices.lt; have c2 := h.values.lt
  rw [show v.values.length = o.values.len from h.values.length,
    show v.indices.length = o.indices.len from h.indices.length, h.l]
  have key : ∀ (n0 : LSVec) (v0 : SVec T) m0, Own m0 F n0 v0 → m.Keeps m0 (fresh m.next) →
      m.next ≤ n0.values.arr → m.next ≤ n0.indices.arr →
      Sim m0 (fresh m.next) (do
        hLoop o.values.len 0 (fun i _ => do
          let x ← hIdx numF o.values i
          hSet numF n0.values i x
          let y ← hIdx intF o.indices i
          hSet intF n0.indices i y) ()
        pure n0 : H T LSVec) (
        loop o.values.len 0 (fun i m => do
            let x ← idx v.values i
            let vals ← setIdx m.values i x
            let y ← idx v.indices i
            let ind ← setIdx m.indices i y
            .ok { m with values := vals, indices := ind }) v0) (fun o' q m' => Own m' F o' q) := by
    intro n0 v0 m0 h0 k0 d1 d2
    have hfr : ∀ m', m.Keeps m' (fresh m.next) → Own m' G o v := fun m' k =>
      h.keep k fun t a ha _ hl => by simp only [fresh] at ha; omega
    refine Sim.right'' (R := fun _ q m' => Own m' F n0 q ∧ m.Keeps m' (fresh m.next))
      (Sim.loop (F := fresh m.next) (R := fun _ q m' => Own m' F n0 q ∧ m.Keeps m' (fresh m.next)) _ _ ⟨h0, k0⟩ ?_) fun _ _ _ h => h.1
    intro i _ q m1 _ _ ⟨hq, kq⟩
    have hv := hfr _ kq
    refine Sim.bind (Sim.idx (G := fresh m.next) hv.values i) (fun _ _ h => h) ?_
    rintro x _ _ ⟨rfl, rfl⟩ -
    refine Sim.bind (Sim.set numF_ok hq.values i x) ?_ ?_
    · rintro t a (⟨rfl, rfl⟩ | e)
      · exact d1
      · exact kq.1.trans e
    rintro _ l' m2 ⟨b, n⟩ k2
    have k2' : m.Keeps m2 (fresh m.next) := kq.trans (k2.mono (by
      rintro t a (⟨rfl, rfl⟩ | e)
      · exact d1
      · exact kq.1.trans e))
    have hv2 := hfr _ k2'
    refine Sim.bind (Sim.idx (G := fresh m.next) hv2.indices i) (fun _ _ h => h) ?_
    rintro y _ _ ⟨rfl, em⟩ -
    rw [em]
    have e2 : Sl intF m2 F n0.indices q.indices := hq.indices.keep intF_ok k2 (by have := hq.indices.lt; simp [only, intF, numF]; omega)
    refine Sim.right' (R := fun _ l m3 => Sl intF m3 F n0.indices l ∧ m3.next = m2.next)
      ((Sim.set intF_ok e2 i y)) ?_ ?_
    · rintro t a (⟨rfl, rfl⟩ | e)
      · exact d2
      · exact k2'.1.trans e
    rintro _ l3 m3 ⟨b3, n3⟩ k3
    refine ⟨⟨hq.l, b.keep numF_ok k3 (by have := b.lt; simp [only, intF, numF]; omega), b3⟩, ?_⟩
    refine k2'.trans (k3.mono ?_)
    rintro t a (⟨rfl, rfl⟩ | e)
    · exact d2
    · exact k2'.1.trans e
  have hn := newL_sim (T := T) hF v.l o.indices.len
  unfold Sim at hn
  rcases hr : (LSVec.newL v.l o.indices.len : H T LSVec) m with ⟨n0, m0⟩ | m0 | m0 <;> rw [hr] at hn
  · exact Sim.left hr hn.2 (fun _ _ h => h) (key n0 _ m0 hn.1.1 hn.2 hn.1.2.1 hn.1.2.2)
  · exact hn.elim
  · exact hn.elim

end LSVec

/-! ## denseVector.go -/

/-- The object `o` holds the value `v`, in arrays of `F`. -/
structure LDVec.Own (m : Mem T) (F : Tag → Nat → Prop) (o : LDVec) (v : DVec T) : Prop where
  l : o.l = v.l
  values : Sl numF m F o.values v.values

namespace LDVec

variable {o : LDVec} {v : DVec T}

theorem Own.keep (h : Own m F o v) (k : m.Keeps m' G) (hG : ∀ t a, G t a → F t a → a < m.next → False) :
    Own m' F o v :=
  ⟨h.l, h.values.keep numF_ok k fun g => hG _ _ g h.values.mem h.values.lt⟩

theorem Own.mono (h : Own m F o v) (hFG : ∀ t a, F t a → a < m.next → G t a) : Own m G o v :=
  ⟨h.l, ⟨hFG _ _ h.values.mem h.values.lt, h.values.lt, h.values.fit, h.values.eq⟩⟩

theorem new_sim (hF : ∀ t a, m.next ≤ a → F t a) (l : Nat) :
    Sim m (fresh m.next) (LDVec.new l : H T LDVec) (.ok (DVec.new l))
      (fun o v m' => Own m' F o v ∧ m.next ≤ o.values.arr) := by
  obtain ⟨m1, t1, e1, h1, a1, n1, -, -, k1⟩ := alloc_ok numF_ok (F := F) m (hF _ _ (le_refl _)) (List.replicate l (0 : T))
  unfold LDVec.new DVec.new
  refine Sim.left e1 k1 (fun _ _ h => h) ?_
  exact Sim.pure ⟨⟨rfl, h1⟩, by dsimp only; omega⟩

theorem atVec_sim (h : Own m F o v) (i : Int) :
    Sim m G (o.atVec i) (v.atVec i) (fun a b m' => a = b ∧ m' = m) := by
  unfold LDVec.atVec DVec.atVec
  rw [h.l]
  split
  · exact Sim.idx h.values _
  · exact Sim.panic

theorem setVec_sim' (h : Own m F o v) (i : Int) (x : T) :
    Sim m (only .num o.values.arr m.next) (o.setVec i x) (v.setVec i x) (fun o' q m' => Own m' F o' q ∧ o' = o) := by
  unfold LDVec.setVec DVec.setVec
  rw [h.l]
  split
  · refine Sim.bind (Sim.set numF_ok h.values _ x) (fun _ _ h => h) ?_
    intro _ l' m' ⟨b, n⟩ k
    exact Sim.pure ⟨⟨h.l, b⟩, rfl⟩
  · exact Sim.panic

theorem setVec_sim (hF : ∀ t a, m.next ≤ a → F t a) (h : Own m F o v) (i : Int) (x : T) :
    Sim m F (o.setVec i x) (v.setVec i x) (fun o' q m' => Own m' F o' q) := by
  refine (setVec_sim' h i x).mono ?_ fun _ _ _ h _ => h.1
  rintro t a (⟨rfl, rfl⟩ | e)
  · exact h.values.mem
  · exact hF _ _ e

theorem updateWith_sim {β : Type} (hF : ∀ t a, m.next ≤ a → F t a) (h : Own m F o v) (r c : Int) (f : T → β × T) :
    Sim m F (o.updateWith r c f) (v.updateWith r c f) (fun p q m' => p.1 = q.1 ∧ Own m' F p.2 q.2) := by
  unfold LDVec.updateWith DVec.updateWith
  rw [h.l]
  split
  swap
  · exact Sim.panic
  split
  swap
  · exact Sim.panic
  refine Sim.bind (atVec_sim (G := F) h r) (fun _ _ h => h) ?_
  rintro x _ _ ⟨rfl, rfl⟩ -
  refine Sim.bind (setVec_sim hF h r _) (fun _ _ h => h) ?_
  intro o' q m' h' _
  exact Sim.pure ⟨rfl, h'⟩

theorem set_sim (hF : ∀ t a, m.next ≤ a → F t a) (h : Own m F o v) (r c : Int) (x : T) :
    Sim m F (o.set r c x) (v.set r c x) (fun o' q m' => Own m' F o' q) := by
  unfold LDVec.set DVec.set
  rw [h.l]
  split
  swap
  · exact Sim.panic
  split
  swap
  · exact Sim.panic
  exact setVec_sim hF h r x

theorem element_sim (h : Own m F o v) (r c : Int) :
    Sim m G (o.element (T := T) r) (v.element r c) (fun a b m' => a = b ∧ m' = m) := by
  unfold LDVec.element DVec.element
  refine Sim.bind (atVec_sim (G := G) h r) (fun _ _ h => h) ?_
  rintro x _ _ ⟨rfl, rfl⟩ -
  exact Sim.pure ⟨rfl, rfl⟩

theorem clear_sim (hF : ∀ t a, m.next ≤ a → F t a) (h : Own m F o v) :
    Sim m F (o.clear : H T LDVec) (.ok v.clear) (fun o' q m' => Own m' F o' q) := by
  obtain ⟨m1, t1, e1, h1, a1, n1, -, -, k1⟩ := alloc_ok numF_ok (F := F) m (hF _ _ (le_refl _)) (List.replicate o.l (0 : T))
  unfold LDVec.clear DVec.clear
  refine Sim.left e1 k1 (fun _ _ h => hF _ _ h) ?_
  rw [h.l] at h1
  exact Sim.pure ⟨h.l, h1⟩

theorem put_sim (hF : ∀ t a, m.next ≤ a → F t a) (h : Own m F o v) (it : DVec.Iter) (x : T) :
    Sim m F (o.put it x) (v.put it x) (fun o' q m' => Own m' F o' q) := setVec_sim hF h _ _

theorem reSize_sim (hF : ∀ t a, m.next ≤ a → F t a) (h : Own m F o v) (n : Nat) :
    Sim m F (o.reSize n : H T LDVec) (v.reSize n) (fun o' q m' => Own m' F o' q.1) := by
  unfold LDVec.reSize DVec.reSize
  rw [h.l, show v.values.length = o.values.len from h.values.length]
  have hlen := h.values.length
  split
  · obtain ⟨m1, s1, e1, h1, -, k1, l1⟩ := append_ok numF_ok hF h.values (List.replicate (n - v.l) 0)
    refine Sim.left e1 k1 ?_ ?_
    · rintro t a (⟨rfl, rfl⟩ | e)
      · exact h.values.mem
      · exact hF _ _ e
    · exact Sim.pure ⟨by dsimp only; rw [l1]; simp [hlen], h1⟩
  split
  · dsimp only
    split
    · refine Sim.left (a := v.values) (m' := m) (G := F) (by simp [hRead, h.values.eq]) .refl (fun _ _ h => h) ?_
      obtain ⟨m1, t1, e1, h1, a1, n1, -, -, k1⟩ := alloc_ok numF_ok (F := F) m (hF _ _ (le_refl _)) ([] : List T)
      refine Sim.left e1 k1 (fun _ _ h => hF _ _ h) ?_
      obtain ⟨m2, s2, e2, h2, -, k2, l2⟩ := append_ok numF_ok (fun t a e => hF t a (by omega)) h1 (v.values.take (v.l - n))
      refine Sim.left e2 k2 ?_ ?_
      · rintro t a (⟨rfl, rfl⟩ | e)
        · exact h1.mem
        · exact hF _ _ (by omega)
      · exact Sim.pure ⟨by dsimp only; rw [← h2.length]; simp, by simpa using h2⟩
    · exact Sim.panic
  · exact Sim.pure ⟨rfl, h.values⟩

theorem copy_sim (hF : ∀ t a, m.next ≤ a → F t a) (h : Own m G o v) :
    Sim m (fresh m.next) (o.copy : H T LDVec) v.copy (fun o' q m' => Own m' F o' q) := by
  unfold LDVec.copy DVec.copy
  have c2 := h.values.lt
  rw [show v.values.length = o.values.len from h.values.length, h.l]
  have hn := new_sim (T := T) hF v.l
  unfold Sim at hn
  rcases hr : (LDVec.new v.l : H T LDVec) m with ⟨n0, m0⟩ | m0 | m0 <;> rw [hr] at hn
  · refine Sim.left hr hn.2 (fun _ _ h => h) ?_
    refine (Sim.loop (F := fresh m.next) (R := fun o' q m' => Own m' F o' q ∧ m.next ≤ o'.values.arr ∧ m.Keeps m' (fresh m.next)) _ _
      ⟨hn.1.1, hn.1.2, hn.2⟩ ?_).mono (fun _ _ h => h) fun _ _ _ h _ => h.1
    intro i o1 q m1 _ _ ⟨hq, d, kq⟩
    have hv : Own m1 G o v := h.keep kq fun t a ha _ hl => by simp only [fresh] at ha; omega
    refine Sim.bind (Sim.idx (G := fresh m.next) hv.values i) (fun _ _ h => h) ?_
    rintro x _ _ ⟨rfl, rfl⟩ -
    refine (setVec_sim' hq i x).mono ?_ ?_
    · rintro t a (⟨rfl, rfl⟩ | e)
      · exact d
      · exact kq.1.trans e
    · rintro _ q' m' ⟨h', rfl⟩ k'
      refine ⟨h', d, kq.trans (k'.mono ?_)⟩
      rintro t a (⟨rfl, rfl⟩ | e)
      · exact d
      · exact kq.1.trans e
  · exact hn.elim
  · exact hn.elim

end LDVec

/-! ## denseMatrix.go -/

omit [GoNum T] in
theorem Sim.loopI {σ τ : Type} {R : Nat → σ → τ → Mem T → Prop} {f : Nat → σ → H T σ} {g : Nat → τ → Out τ} :
    ∀ (n i0 : Nat) {m : Mem T} {s : σ} {t : τ}, R i0 s t m →
      (∀ i s t m', i0 ≤ i → i < i0 + n → R i s t m' → Sim m' F (f i s) (g i t) (R (i + 1))) →
      Sim m F (hLoop n i0 f s) (GB.loop n i0 g t) (R (i0 + n))
  | 0, _, _, _, _, h, _ => Sim.pure h
  | n + 1, i0, _, _, _, h, hf => by
    show Sim _ F (f i0 _ >>= hLoop n (i0 + 1) f) (g i0 _ >>= GB.loop n (i0 + 1) g) (R (i0 + (n + 1)))
    refine Sim.bind (hf i0 _ _ _ (le_refl _) (by omega) h) (fun _ _ h => h) fun a b m' h' _ => ?_
    have := Sim.loopI n (i0 + 1) h' fun i s t m'' h1 h2 h3 => hf i s t m'' (by omega) (by omega) h3
    rwa [show i0 + 1 + n = i0 + (n + 1) by omega] at this

/-- The first `n` headers hold the first `n` rows, in different arrays. -/
structure Rows (m : Mem T) (F : Tag → Nat → Prop) (n : Nat) (hs : List Slice) (D : List (List T)) : Prop where
  len : hs.length = D.length
  row : ∀ i h d, i < n → hs[i]? = some h → D[i]? = some d → Sl numF m F h d
  ne : ∀ i j h h', i < n → j < n → i ≠ j → hs[i]? = some h → hs[j]? = some h' → h.arr ≠ h'.arr

theorem Rows.keep {n : Nat} {hs : List Slice} {D : List (List T)} (h : Rows m F n hs D) (k : m.Keeps m' G)
    (hG : ∀ t a, G t a → F t a → a < m.next → False) : Rows m' F n hs D :=
  ⟨h.len, fun i a d hi ha hd => (h.row i a d hi ha hd).keep numF_ok k fun g =>
    hG _ _ g (h.row i a d hi ha hd).mem (h.row i a d hi ha hd).lt, h.ne⟩

/-- The object `o` holds the value `v`, in arrays of `F`. -/
structure LDense.Own (m : Mem T) (F : Tag → Nat → Prop) (o : LDense) (v : Dense T) : Prop where
  r : o.r = v.r
  c : o.c = v.c
  data : ∃ hs, Sl rowF m F o.data hs ∧ Rows m F hs.length hs v.data

namespace LDense

variable {o : LDense} {v : Dense T}

theorem Own.keep (h : Own m F o v) (k : m.Keeps m' G) (hG : ∀ t a, G t a → F t a → a < m.next → False) :
    Own m' F o v := by
  obtain ⟨hs, h1, h2⟩ := h.data
  exact ⟨h.r, h.c, hs, h1.keep rowF_ok k fun g => hG _ _ g h1.mem h1.lt, h2.keep k hG⟩

theorem Own.mono (h : Own m F o v) (hFG : ∀ t a, F t a → a < m.next → G t a) : Own m G o v := by
  obtain ⟨hs, h1, h2⟩ := h.data
  exact ⟨h.r, h.c, hs, ⟨hFG _ _ h1.mem h1.lt, h1.lt, h1.fit, h1.eq⟩, h2.len,
    fun i a d hi ha hd => have h3 := h2.row i a d hi ha hd
      ⟨hFG _ _ h3.mem h3.lt, h3.lt, h3.fit, h3.eq⟩, h2.ne⟩

theorem row_sim {s : Slice} {hs : List Slice} {D : List (List T)} (h1 : Sl rowF m F s hs)
    (h2 : Rows m F hs.length hs D) (i : Nat) :
    Sim m G (hIdx rowF s i : H T Slice) (idx D i) (fun a d m' => m' = m ∧ Sl numF m F a d ∧ hs[i]? = some a ∧ D[i]? = some d) := by
  have := Sim.idx (G := G) h1 i
  unfold Sim at this ⊢
  revert this
  by_cases hi : i < hs.length
  · have hd : i < D.length := by rw [← h2.len]; exact hi
    rw [idx_ok hi, idx_ok hd]
    rcases hIdx rowF s i m with ⟨a, m'⟩ | m' | m'
    · rintro ⟨⟨rfl, rfl⟩, k⟩
      exact ⟨⟨rfl, h2.row i _ _ hi (by simp [hi]) (by simp [hd]), by simp [hi], by simp [hd]⟩, k⟩
    · exact fun h => h.elim
    · exact fun h => h.elim
  · have hd : ¬ i < D.length := by rw [← h2.len]; exact hi
    have e1 : idx hs i = .panic := by simp [idx, List.getElem?_eq_none (not_lt.1 hi)]
    have e2 : idx D i = .panic := by simp [idx, List.getElem?_eq_none (not_lt.1 hd)]
    rw [e1, e2]
    rcases hIdx rowF s i m with ⟨a, m'⟩ | m' | m'
    · exact fun h => h.elim
    · exact fun h => h
    · exact fun h => h.elim

/-- Writing one row's array is writing that row, and no other. -/
theorem Own.write {hs : List Slice} {i : Nat} {a : Slice} {d' : List T} (h : Own m F o v)
    (h1 : Sl rowF m F o.data hs) (h2 : Rows m F hs.length hs v.data) (ha : hs[i]? = some a)
    (hw : Sl numF m' F a d') (k : m.Keeps m' (only .num a.arr m.next)) :
    Own m' F o { v with data := v.data.set i d' } := by
  have c1 := h1.lt
  refine ⟨h.r, h.c, hs, h1.keep rowF_ok k (by simp [only, rowF]; omega), by simpa using h2.len, ?_, h2.ne⟩
  intro j b e hj hb he
  rw [List.getElem?_set] at he
  by_cases hij : i = j
  · subst hij
    rw [if_pos rfl] at he
    split at he
    · cases he
      rw [ha] at hb; cases hb
      exact hw
    · cases he
  · rw [if_neg hij] at he
    have h3 := h2.row j b e hj hb he
    have hi : i < hs.length := (List.getElem?_eq_some_iff.1 ha).1
    have h4 := h2.ne j i b a hj hi (fun e => hij e.symm) hb ha
    have h5 := h3.lt
    exact h3.keep numF_ok k (by simp [only, numF]; omega)

theorem updateWith_sim {β : Type} (hF : ∀ t a, m.next ≤ a → F t a) (h : Own m F o v) (r c : Int) (f : T → β × T) :
    Sim m F (o.updateWith r c f) (v.updateWith r c f) (fun p q m' => p.1 = q.1 ∧ Own m' F p.2 q.2) := by
  unfold LDense.updateWith Dense.updateWith
  rw [h.r, h.c]
  split
  swap
  · exact Sim.panic
  split
  swap
  · exact Sim.panic
  obtain ⟨hs, h1, h2⟩ := h.data
  refine Sim.bind (row_sim (G := F) h1 h2 _) (fun _ _ h => h) ?_
  rintro a d _ ⟨rfl, h3, h4, h5⟩ -
  refine Sim.bind (Sim.idx (G := F) h3 _) (fun _ _ h => h) ?_
  rintro x _ _ ⟨rfl, rfl⟩ -
  refine Sim.bind (Sim.set numF_ok h3 _ _) ?_ ?_
  · rintro t b (⟨rfl, rfl⟩ | e)
    · exact h3.mem
    · exact hF _ _ e
  intro _ d' m' ⟨b, n⟩ k
  rw [setIdx_ok (List.getElem?_eq_some_iff.1 h5).1]
  exact Sim.pure ⟨rfl, h.write h1 h2 h4 b k⟩

theorem set_sim (hF : ∀ t a, m.next ≤ a → F t a) (h : Own m F o v) (r c : Int) (x : T) :
    Sim m F (o.set r c x) (v.set r c x) (fun o' q m' => Own m' F o' q) := by
  unfold LDense.set Dense.set
  rw [h.r, h.c]
  split
  swap
  · exact Sim.panic
  split
  swap
  · exact Sim.panic
  obtain ⟨hs, h1, h2⟩ := h.data
  refine Sim.bind (row_sim (G := F) h1 h2 _) (fun _ _ h => h) ?_
  rintro a d _ ⟨rfl, h3, h4, h5⟩ -
  refine Sim.bind (Sim.set numF_ok h3 _ _) ?_ ?_
  · rintro t b (⟨rfl, rfl⟩ | e)
    · exact h3.mem
    · exact hF _ _ e
  intro _ d' m' ⟨b, n⟩ k
  rw [setIdx_ok (List.getElem?_eq_some_iff.1 h5).1]
  exact Sim.pure (h.write h1 h2 h4 b k)

theorem at_sim (h : Own m F o v) (r c : Int) :
    Sim m G (o.at' r c) (v.at' r c) (fun a b m' => a = b ∧ m' = m) := by
  unfold LDense.at' Dense.at'
  rw [h.r, h.c]
  split
  swap
  · exact Sim.panic
  split
  swap
  · exact Sim.panic
  obtain ⟨hs, h1, h2⟩ := h.data
  refine Sim.bind (row_sim (G := G) h1 h2 _) (fun _ _ h => h) ?_
  rintro a d _ ⟨rfl, h3, h4, h5⟩ -
  exact Sim.idx h3 _

theorem element_sim (h : Own m F o v) (r c : Int) :
    Sim m G (o.element (T := T) r c) (v.element r c) (fun a b m' => a = b ∧ m' = m) := by
  unfold LDense.element Dense.element
  refine Sim.bind (at_sim (G := G) h r c) (fun _ _ h => h) ?_
  rintro x _ _ ⟨rfl, rfl⟩ -
  exact Sim.pure ⟨rfl, rfl⟩

theorem put_sim (hF : ∀ t a, m.next ≤ a → F t a) (h : Own m F o v) (it : Dense.Iter) (x : T) :
    Sim m F (o.put it x) (v.put it x) (fun o' q m' => Own m' F o' q) := set_sim hF h _ _ _

/-- The loop that makes the rows: fresh array after fresh array. -/
theorem rows_sim (hF : ∀ t a, m.next ≤ a → F t a) (r c : Nat) (init : Slice → Nat → H T Unit) (ginit : Nat → Out (List T))
    (hinit : ∀ i s m', m.Keeps m' (fresh m.next) → m.next ≤ s.arr → Sl numF m' F s (List.replicate c 0) →
      Sim m' (only .num s.arr m'.next) (init s i) (ginit i) (fun _ l m'' => Sl numF m'' F s l)) :
    Sim m (fresh m.next) (do
      let data ← hAlloc rowF (List.replicate r ⟨0, 0, 0⟩)
      hLoop r 0 (fun i _ => do
        let row ← hAlloc numF (List.replicate c 0)
        hSet rowF data i row
        init row i) ()
      pure ({ r := r, c := c, data := data } : LDense))
      (do
        let data ← loop r 0 (fun i D => do let row ← ginit i; setIdx D i row) (List.replicate r [])
        .ok { r := r, c := c, data := data }) (fun o' q m' => Own m' F o' q) := by
  obtain ⟨m1, s, e1, h1, a1, n1, -, -, k1⟩ :=
    alloc_ok (rowF_ok (T := T)) (F := F) m (hF _ _ (le_refl _)) (List.replicate r ⟨0, 0, 0⟩)
  refine Sim.left e1 k1 (fun _ _ h => h) ?_
  refine Sim.bind (Sim.loopI (F := fresh m.next) (R := fun i _ D m' => m.Keeps m' (fresh m.next) ∧
    ∃ hs, Sl rowF m' F s hs ∧ hs.length = r ∧ Rows m' F i hs D) r 0
    ⟨k1, _, h1, by simp, by simp, by intros; omega, by intros; omega⟩ ?_) (fun _ _ h => h) ?_
  swap
  · rintro _ D m' ⟨-, hs, hs1, hs2, hs3⟩ -
    refine Sim.pure ⟨rfl, rfl, hs, hs1, ?_⟩
    rw [hs2]; simpa using hs3
  rintro i _ D m2 - hi ⟨k2, hs, b1, b2, b3⟩
  have hk := k2.1
  obtain ⟨m3, t, e3, h3, a3, n3, -, -, k3⟩ := alloc_ok numF_ok (F := F) m2 (hF _ _ (by omega)) (List.replicate c (0 : T))
  refine Sim.left e3 k3 (fun t a e => by simp only [fresh] at *; omega) ?_
  have b1' := b1.keep rowF_ok k3 (by have := b1.lt; simp only [fresh]; omega)
  have b3' := b3.keep k3 (by intro t a h _ _; simp only [fresh] at *; omega)
  have hs4 := Sim.set rowF_ok b1' i t
  rw [setIdx_ok (by omega)] at hs4
  unfold Sim at hs4
  rcases hr : hSet rowF s i t m3 with ⟨u, m4⟩ | m4 | m4 <;> rw [hr] at hs4
  rotate_left
  · exact hs4.elim
  · exact hs4.elim
  obtain ⟨⟨b4, n4⟩, k4⟩ := hs4
  have k4f : m3.Keeps m4 (fresh m.next) := k4.mono fun t a e => by
    rcases e with ⟨-, e⟩ | e
    · simp only [fresh]; omega
    · simp only [fresh]; omega
  refine Sim.left hr k4f (fun t a e => e) ?_
  have h4 : Sl numF m4 F t (List.replicate c 0) := h3.keep numF_ok k4 (by have := h3.lt; simp [only, rowF, numF]; omega)
  have km4 : m.Keeps m4 (fresh m.next) :=
    (k2.trans (k3.mono (fun t a e => by simp only [fresh] at *; omega))).trans k4f
  have b3'' : ∀ j h d, j < i → hs[j]? = some h → D[j]? = some d → Sl numF m4 F h d := fun j h d hj hh hd => by
    have := b3'.row j h d hj hh hd
    exact this.keep numF_ok k4 (by have := this.lt; simp [only, rowF, numF]; omega)
  have hlt : ∀ j h, j < i → hs[j]? = some h → h.arr < m2.next := fun j h hj hh => by
    have hjl : j < D.length := by rw [← b3.len, b2]; omega
    exact (b3.row j h D[j] hj hh (by simp [hjl])).lt
  have hDl : D.length = r := by rw [← b3.len, b2]
  -- the body's last step on values cannot panic
  have hfin := hinit i t m4 km4 (by omega) h4
  unfold Sim at hfin ⊢
  revert hfin
  rcases init t i m4 with ⟨u', m5⟩ | m5 | m5 <;> rcases ginit i with d | _ | _ <;> intro hfin
  all_goals first | exact hfin.elim | skip
  · simp only [Out.ok_bind]
    rw [setIdx_ok (by omega)]
    obtain ⟨w, k5⟩ := hfin
    have k5f : m4.Keeps m5 (fresh m.next) := k5.mono fun t a e => by
      rcases e with ⟨-, e⟩ | e
      · simp only [fresh]; omega
      · have := km4.1; simp only [fresh]; omega
    refine ⟨⟨km4.trans k5f, hs.set i t, b4.keep rowF_ok k5 (by have := b4.lt; simp [only, rowF]; omega), by simp [b2], ?_, ?_, ?_⟩, k5f⟩
    · simp [b2, hDl]
    · intro j h d' hj hh hd'
      rw [List.getElem?_set] at hh hd'
      by_cases hij : i = j
      · rw [if_pos hij] at hh hd'
        split at hh
        · split at hd'
          · cases hh; cases hd'; exact w
          · cases hd'
        · cases hh
      · rw [if_neg hij] at hh hd'
        have hq := b3'' j h d' (by omega) hh hd'
        have hl := hlt j h (by omega) hh
        have := km4.1
        have := hq.lt
        exact hq.keep numF_ok k5 (by simp [only, numF]; omega)
    · intro j j' h h' hj hj' hne hh hh'
      rw [List.getElem?_set] at hh hh'
      by_cases hij : i = j
      · rw [if_pos hij] at hh
        rw [if_neg (by omega)] at hh'
        have := hlt j' h' (by omega) hh'
        split at hh
        · cases hh; omega
        · cases hh
      · rw [if_neg hij] at hh
        have := hlt j h (by omega) hh
        by_cases hij' : i = j'
        · rw [if_pos hij'] at hh'
          split at hh'
          · cases hh'; omega
          · cases hh'
        · rw [if_neg hij'] at hh'
          exact b3.ne j j' h h' (by omega) (by omega) hne hh hh'
  all_goals
    show Mem.Keeps _ _ _
    refine hfin.mono fun t a e => ?_
    rcases e with ⟨-, e⟩ | e
    · simp only [fresh]; omega
    · have := km4.1; simp only [fresh]; omega

theorem loop_new (r c : Nat) :
    (do
      let data ← loop r 0 (fun i D => do let row ← (.ok (List.replicate c 0) : Out (List T)); setIdx D i row) (List.replicate r [])
      .ok { r := r, c := c, data := data } : Out (Dense T)) = .ok (Dense.new r c) := by
  have := loop_fill r ([] : List T) (fun _ => List.replicate c 0)
    (fun i D => do let row ← (.ok (List.replicate c 0) : Out (List T)); setIdx D i row) (fun _ _ _ => rfl)
  rw [this]
  simp [Dense.new]

theorem new_sim (hF : ∀ t a, m.next ≤ a → F t a) (r c : Nat) :
    Sim m (fresh m.next) (LDense.new r c : H T LDense) (.ok (Dense.new r c)) (fun o v m' => Own m' F o v) := by
  rw [← loop_new]
  exact rows_sim hF r c (fun _ _ => pure ()) (fun _ => .ok (List.replicate c 0)) fun i s m' _ _ h => Sim.pure h

theorem clear_fresh (hF : ∀ t a, m.next ≤ a → F t a) (o : LDense) :
    Sim m (fresh m.next) (o.clear : H T LDense) (.ok (Dense.new o.r o.c)) (fun o' q m' => Own m' F o' q) := by
  have := rows_sim hF o.r o.c (fun _ _ => pure ()) (fun _ => .ok (List.replicate o.c (0 : T))) fun i s m' _ _ h => Sim.pure h
  rw [loop_new] at this
  have e : (o.clear : H T LDense) = (do
      let data ← hAlloc rowF (List.replicate o.r ⟨0, 0, 0⟩)
      hLoop o.r 0 (fun i _ => do
        let row ← hAlloc numF (List.replicate o.c 0)
        hSet rowF data i row
        pure ()) ()
      pure ({ r := o.r, c := o.c, data := data } : LDense)) := by
    unfold LDense.clear
    congr
    funext data
    congr
    funext i _ m
    show H.bind _ _ m = H.bind _ _ m
    unfold H.bind
    cases hAlloc numF (List.replicate o.c (0 : T)) m with
    | ok a m' =>
      show hSet rowF data i a m' = H.bind _ _ m'
      unfold H.bind
      rcases hSet rowF data i a m' with ⟨⟨⟩, m''⟩ | m'' | m'' <;> rfl
    | panic m' => rfl
    | hang m' => rfl
  rw [e]
  exact this

theorem clear_sim (hF : ∀ t a, m.next ≤ a → F t a) (h : Own m F o v) :
    Sim m F (o.clear : H T LDense) (.ok v.clear) (fun o' q m' => Own m' F o' q) := by
  have := (clear_fresh hF o).mono (F := F) (fun _ _ e => hF _ _ e) fun _ _ _ h _ => h
  rw [h.r, h.c] at this
  exact this

theorem copy_sim (hF : ∀ t a, m.next ≤ a → F t a) (h : Own m G o v) :
    Sim m (fresh m.next) (o.copy : H T LDense) v.copy (fun o' q m' => Own m' F o' q) := by
  unfold LDense.copy LDense.newMatrix Dense.copy
  rw [h.r, h.c]
  refine rows_sim hF v.r v.c _ (fun i => loop v.c 0 (fun c row => do
          let srow ← idx v.data i
          let v ← idx srow c
          setIdx row c v) (List.replicate v.c 0)) ?_
  intro i s m' k hs hsl
  obtain ⟨hs', h1, h2⟩ := h.data
  have hlt := h1.lt
  refine (Sim.loop (F := only .num s.arr m'.next) (R := fun _ l m'' => Sl numF m'' F s l ∧ m.Keeps m'' (fresh m.next) ∧ m'.next ≤ m''.next) _ _ ⟨hsl, k, le_refl _⟩ ?_).mono
    (fun _ _ e => e) fun _ _ _ h _ => h.1
  intro j _ l m1 _ _ ⟨b1, b2, b3⟩
  have hv : Own m1 G o v := h.keep b2 fun t a ha _ hl => by simp only [fresh] at ha; omega
  have g1 : Sl rowF m1 G o.data hs' := h1.keep rowF_ok b2 (by simp only [fresh]; omega)
  have g2 : Rows m1 G hs'.length hs' v.data := h2.keep b2 fun t a ha _ hl => by simp only [fresh] at ha; omega
  refine Sim.bind (row_sim (G := only .num s.arr m'.next) g1 g2 i) (fun _ _ h => h) ?_
  rintro a d _ ⟨rfl, h3, h4, h5⟩ -
  refine Sim.bind (Sim.idx (G := only .num s.arr m'.next) h3 _) (fun _ _ h => h) ?_
  rintro x _ _ ⟨rfl, rfl⟩ -
  refine (Sim.set numF_ok b1 _ _).mono ?_ ?_
  · rintro t b (⟨rfl, rfl⟩ | e)
    · exact Or.inl ⟨rfl, rfl⟩
    · exact Or.inr (b3.trans e)
  · rintro _ l' m2 ⟨w, n⟩ k2
    refine ⟨w, b2.trans (k2.mono ?_), by rw [n]; exact b3⟩
    rintro t b (⟨rfl, rfl⟩ | e)
    · exact hs
    · exact b2.1.trans e

end LDense

end GB.Share
