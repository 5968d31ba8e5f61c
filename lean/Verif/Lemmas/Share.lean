import Verif.Model.Share
import Verif.Lemmas.Basic

/-!
# Memory computations compared with computations on values
-/

namespace GB.Share

variable {T : Type}

/-- `m'` comes after `m`, and every array outside `F` is untouched. -/
def Mem.Keeps (m m' : Mem T) (F : Tag → Nat → Prop) : Prop :=
  m.next ≤ m'.next ∧ (∀ a, ¬ F .num a → m'.num a = m.num a) ∧ (∀ a, ¬ F .int a → m'.int a = m.int a) ∧
  (∀ a, ¬ F .row a → m'.row a = m.row a)

theorem Mem.Keeps.refl {m : Mem T} {F : Tag → Nat → Prop} : m.Keeps m F :=
  ⟨le_refl _, fun _ _ => rfl, fun _ _ => rfl, fun _ _ => rfl⟩

theorem Mem.Keeps.trans {m m' m'' : Mem T} {F : Tag → Nat → Prop} (h : m.Keeps m' F) (h' : m'.Keeps m'' F) :
    m.Keeps m'' F :=
  ⟨h.1.trans h'.1, fun a ha => (h'.2.1 a ha).trans (h.2.1 a ha),
    fun a ha => (h'.2.2.1 a ha).trans (h.2.2.1 a ha), fun a ha => (h'.2.2.2 a ha).trans (h.2.2.2 a ha)⟩

theorem Mem.Keeps.mono {m m' : Mem T} {F G : Tag → Nat → Prop} (h : m.Keeps m' F) (hFG : ∀ t a, F t a → G t a) :
    m.Keeps m' G :=
  ⟨h.1, fun a ha => h.2.1 a fun x => ha (hFG _ _ x), fun a ha => h.2.2.1 a fun x => ha (hFG _ _ x),
    fun a ha => h.2.2.2 a fun x => ha (hFG _ _ x)⟩

/-- What the three kinds of arrays have in common. -/
structure Fld.Ok {α : Type} (φ : Fld T α) : Prop where
  same : ∀ (m : Mem T) a l, φ.get (φ.put m a l) a = l
  next : ∀ (m : Mem T) a l, (φ.put m a l).next = m.next
  keeps : ∀ (m : Mem T) a l, m.Keeps (φ.put m a l) (fun t b => t = φ.tag ∧ b = a)
  get : ∀ (m m' : Mem T) F a, m.Keeps m' F → ¬ F φ.tag a → φ.get m' a = φ.get m a
  up : ∀ (m : Mem T) n a, φ.get { m with next := n } a = φ.get m a

theorem numF_ok [GoNum T] : (numF : Fld T T).Ok where
  same m a l := by simp [numF]
  next m a l := rfl
  keeps m a l := ⟨le_refl _, fun b hb => Function.update_of_ne (fun e => hb ⟨rfl, e⟩) _ _,
    fun _ _ => rfl, fun _ _ => rfl⟩
  get m m' F a h ha := h.2.1 a ha
  up m n a := rfl

theorem intF_ok : (intF : Fld T Nat).Ok where
  same m a l := by simp [intF]
  next m a l := rfl
  keeps m a l := ⟨le_refl _, fun _ _ => rfl, fun b hb => Function.update_of_ne (fun e => hb ⟨rfl, e⟩) _ _,
    fun _ _ => rfl⟩
  get m m' F a h ha := h.2.2.1 a ha
  up m n a := rfl

theorem rowF_ok : (rowF : Fld T Slice).Ok where
  same m a l := by simp [rowF]
  next m a l := rfl
  keeps m a l := ⟨le_refl _, fun _ _ => rfl, fun _ _ => rfl,
    fun b hb => Function.update_of_ne (fun e => hb ⟨rfl, e⟩) _ _⟩
  get m m' F a h ha := h.2.2.2 a ha
  up m n a := rfl

/-! ## Simulation -/

/-- The memory computation `x`, started in `m`, ends as `y` does; the results are related, and only
arrays in `F` have been touched. -/
def Sim {α β : Type} (m : Mem T) (F : Tag → Nat → Prop) (x : H T α) (y : Out β) (R : α → β → Mem T → Prop) : Prop :=
  match x m, y with
  | .ok a m', .ok b => R a b m' ∧ m.Keeps m' F
  | .panic m', .panic => m.Keeps m' F
  | .hang m', .hang => m.Keeps m' F
  | _, _ => False

section
variable {α β γ δ : Type} {m : Mem T} {F G : Tag → Nat → Prop} {R : α → β → Mem T → Prop} {R' : γ → δ → Mem T → Prop}

theorem pure_apply (a : α) (m : Mem T) : (pure a : H T α) m = .ok a m := rfl

theorem bind_ok {x : H T α} {f : α → H T γ} {m m' : Mem T} {a : α} (h : x m = .ok a m') : (x >>= f) m = f a m' := by
  show H.bind x f m = _
  simp [H.bind, h]

theorem Sim.pure {a : α} {b : β} (h : R a b m) : Sim m F (pure a) (.ok b) R := ⟨h, .refl⟩

theorem Sim.bind {x : H T α} {y : Out β} {f : α → H T γ} {g : β → Out δ} (hx : Sim m G x y R)
    (hG : ∀ t a, G t a → F t a)
    (hf : ∀ a b m', R a b m' → m.Keeps m' G → Sim m' F (f a) (g b) R') : Sim m F (x >>= f) (y >>= g) R' := by
  show Sim m F (H.bind x f) (Out.bind y g) R'
  unfold Sim at hx
  unfold Sim H.bind
  revert hx
  rcases hxm : x m with ⟨a, m'⟩ | m' | m' <;> rcases y with b | _ | _ <;> intro hx <;> simp only [Out.bind] at hx ⊢
  · have := hf a b m' hx.1 hx.2
    unfold Sim at this
    revert this
    rcases f a m' with ⟨c, m''⟩ | m'' | m'' <;> rcases g b with d | _ | _ <;> intro this <;> simp only at this ⊢
    · exact ⟨this.1, (hx.2.mono hG).trans this.2⟩
    · exact (hx.2.mono hG).trans this
    · exact (hx.2.mono hG).trans this
  · exact hx.mono hG
  · exact hx.mono hG

theorem Sim.left {x : H T α} {f : α → H T γ} {y : Out δ} {a : α} {m' : Mem T} (hx : x m = .ok a m')
    (hk : m.Keeps m' G) (hG : ∀ t a, G t a → F t a) (hf : Sim m' F (f a) y R') : Sim m F (x >>= f) y R' := by
  unfold Sim at hf ⊢
  rw [bind_ok hx]
  revert hf
  rcases f a m' with ⟨c, m''⟩ | m'' | m'' <;> rcases y with d | _ | _ <;> intro hf <;> simp only at hf ⊢
  · exact ⟨hf.1, (hk.mono hG).trans hf.2⟩
  · exact (hk.mono hG).trans hf
  · exact (hk.mono hG).trans hf

theorem Sim.mono {x : H T α} {y : Out β} {R₂ : α → β → Mem T → Prop} (hx : Sim m G x y R)
    (hG : ∀ t a, G t a → F t a) (hR : ∀ a b m', R a b m' → m.Keeps m' G → R₂ a b m') : Sim m F x y R₂ := by
  unfold Sim at hx ⊢
  revert hx
  rcases x m with ⟨c, m''⟩ | m'' | m'' <;> rcases y with d | _ | _ <;> intro hx <;> simp only at hx ⊢
  · exact ⟨hR _ _ _ hx.1 hx.2, hx.2.mono hG⟩
  · exact hx.mono hG
  · exact hx.mono hG

theorem Sim.lift {y : Out β} : Sim m F (lift y) y (fun a b m' => a = b ∧ m' = m) := by
  unfold Sim Share.lift
  rcases y with b | _ | _
  · exact ⟨⟨rfl, rfl⟩, .refl⟩
  · exact .refl
  · exact .refl

theorem Sim.panic {R : α → β → Mem T → Prop} : Sim m F (Share.lift .panic) .panic R := Mem.Keeps.refl

theorem Sim.loop {σ τ : Type} {R : σ → τ → Mem T → Prop} {f : Nat → σ → H T σ} {g : Nat → τ → Out τ} :
    ∀ (n i0 : Nat) {m : Mem T} {s : σ} {t : τ}, R s t m →
      (∀ i s t m', i0 ≤ i → i < i0 + n → R s t m' → Sim m' F (f i s) (g i t) R) →
      Sim m F (hLoop n i0 f s) (GB.loop n i0 g t) R
  | 0, _, _, _, _, h, _ => Sim.pure h
  | n + 1, i0, _, _, _, h, hf => by
    show Sim _ F (f i0 _ >>= hLoop n (i0 + 1) f) (g i0 _ >>= GB.loop n (i0 + 1) g) R
    refine Sim.bind (hf i0 _ _ _ (le_refl _) (by omega) h) (fun _ _ h => h) fun a b m' h' _ => ?_
    exact Sim.loop n (i0 + 1) h' fun i s t m'' h1 h2 h3 => hf i s t m'' (by omega) (by omega) h3

end

/-! ## Slices -/

/-- The slice `s` lies in an allocated array of `F` and holds `l`. -/
structure Sl {α : Type} (φ : Fld T α) (m : Mem T) (F : Tag → Nat → Prop) (s : Slice) (l : List α) : Prop where
  mem : F φ.tag s.arr
  lt : s.arr < m.next
  fit : s.off + s.len ≤ (φ.get m s.arr).length
  eq : s.get φ m = l

section
variable {α : Type} {φ : Fld T α} (hφ : φ.Ok) {m m' : Mem T} {F G : Tag → Nat → Prop} {s : Slice} {l : List α}

theorem Sl.length (h : Sl φ m F s l) : l.length = s.len := by
  have := h.fit
  rw [← h.eq, Slice.get]; simp; omega

include hφ in
theorem Sl.keep (h : Sl φ m F s l) (k : m.Keeps m' G) (hG : ¬ G φ.tag s.arr) : Sl φ m' F s l := by
  have e := hφ.get m m' G s.arr k hG
  exact ⟨h.mem, lt_of_lt_of_le h.lt k.1, by rw [e]; exact h.fit, by rw [Slice.get, e]; exact h.eq⟩

/-- Only this array, and arrays created later. -/
def only (t : Tag) (a n : Nat) : Tag → Nat → Prop := fun t' b => (t' = t ∧ b = a) ∨ n ≤ b

/-- Only arrays created later. -/
def fresh (n : Nat) : Tag → Nat → Prop := fun _ b => n ≤ b

theorem Sim.idx (h : Sl φ m F s l) (i : Nat) :
    Sim m G (hIdx φ s i) (GB.idx l i) (fun a b m' => a = b ∧ m' = m) := by
  unfold hIdx
  refine Sim.left (G := G) (a := l) (m' := m) ?_ .refl (fun _ _ h => h) Sim.lift
  simp [hRead, h.eq]

theorem set_get {L : List α} {off len i : Nat} {a : α} :
    ((L.set (off + i) a).drop off).take len = ((L.drop off).take len).set i a := by
  rw [List.drop_set, if_neg (by omega), List.take_set, show off + i - off = i by omega]

include hφ in
theorem Sim.set (h : Sl φ m F s l) (i : Nat) (a : α) :
    Sim m (only φ.tag s.arr m.next) (hSet φ s i a) (setIdx l i a) (fun _ l' m' => Sl φ m' F s l' ∧ m'.next = m.next) := by
  have hl := h.length
  unfold hSet setIdx
  rw [hl]
  unfold Sim
  by_cases hi : i < s.len
  · simp only [hi, if_true]
    refine ⟨⟨⟨h.mem, by rw [hφ.next]; exact h.lt, ?_, ?_⟩, hφ.next _ _ _⟩, (hφ.keeps _ _ _).mono fun t b hb => Or.inl hb⟩
    · rw [hφ.same, List.length_set]; exact h.fit
    · rw [Slice.get, hφ.same, set_get, ← h.eq]; rfl
  · simp only [hi, if_false]; exact .refl

include hφ in
theorem alloc_ok (m : Mem T) (hF : F φ.tag m.next) (l : List α) :
    ∃ m' s, hAlloc φ l m = .ok s m' ∧ Sl φ m' F s l ∧ s.arr = m.next ∧ m'.next = m.next + 1 ∧
      s.off = 0 ∧ s.len = l.length ∧ m.Keeps m' (fresh m.next) := by
  refine ⟨_, _, rfl, ⟨hF, by simp, ?_, ?_⟩, rfl, rfl, rfl, rfl, ?_⟩
  · rw [hφ.up]; simp [hφ.same]
  · rw [Slice.get, hφ.up]; simp [hφ.same]
  · obtain ⟨a, b, c, d⟩ := hφ.keeps m m.next l
    refine ⟨Nat.le_succ _, fun x hx => b x fun e => hx ?_, fun x hx => c x fun e => hx ?_, fun x hx => d x fun e => hx ?_⟩ <;>
    exact Nat.le_of_eq e.2.symm

include hφ in
/-- `append` gives a slice that holds the old elements and the new ones; it lies in the same array
or in a fresh one. -/
theorem append_ok (hF : ∀ t a, m.next ≤ a → F t a) (h : Sl φ m F s l) (src : List α) :
    ∃ m' s', hAppend φ s src m = .ok s' m' ∧ Sl φ m' F s' (l ++ src) ∧ (s'.arr = s.arr ∨ m.next ≤ s'.arr) ∧
      m.Keeps m' (only φ.tag s.arr m.next) ∧ s'.len = s.len + src.length := by
  have hfit := h.fit
  have he := h.eq
  unfold hAppend
  by_cases hc : s.off + s.len + src.length ≤ (φ.get m s.arr).length
  · simp only [hc, if_true]
    refine ⟨_, _, rfl, ⟨h.mem, by rw [hφ.next]; exact h.lt, ?_, ?_⟩, Or.inl rfl,
      (hφ.keeps _ _ _).mono fun t b hb => Or.inl hb, rfl⟩
    · rw [hφ.same]; simp; omega
    · rw [Slice.get, hφ.same]
      have e1 : (φ.get m s.arr).take (s.off + s.len) = (φ.get m s.arr).take s.off ++ l := by
        rw [← he, Slice.get, List.take_add]
      simp only [e1, List.append_assoc]
      have e2 : ((φ.get m s.arr).take s.off).length = s.off := by simp; omega
      rw [List.drop_append, List.drop_of_length_le (by omega), e2, Nat.sub_self]
      simp only [List.drop_zero, List.nil_append]
      rw [← List.append_assoc, List.take_append_of_le_length (by simp [h.length]), List.take_of_length_le (by simp [h.length])]
  · simp only [hc, if_false]
    refine ⟨_, _, rfl, ⟨hF _ _ (le_refl _), by simp, ?_, ?_⟩, Or.inr (le_refl _), ?_, rfl⟩
    · rw [hφ.up]; simp only [hφ.same]; simp [he, h.length]
    · rw [Slice.get, hφ.up]; simp only [hφ.same, List.drop_zero]
      rw [he, List.take_append_of_le_length (by simp [h.length]), List.take_of_length_le (by simp [h.length])]
    · obtain ⟨a, b, c, d⟩ := hφ.keeps m m.next (s.get φ m ++ src ++ List.replicate (m.slack m.next) φ.zero)
      refine ⟨Nat.le_succ _, fun x hx => b x fun e => hx ?_, fun x hx => c x fun e => hx ?_, fun x hx => d x fun e => hx ?_⟩ <;>
      exact Or.inr (Nat.le_of_eq e.2.symm)

theorem Sl.prefix (h : Sl φ m F s l) {p : Nat} (hp : p ≤ s.len) : Sl φ m F { s with len := p } (l.take p) := by
  refine ⟨h.mem, h.lt, (by have := h.fit; simp only; omega), ?_⟩
  rw [← h.eq]; simp [Slice.get, List.take_take, hp]

include hφ in
theorem Sim.unsplice (hF : ∀ t a, m.next ≤ a → F t a) (h : Sl φ m F s l) (p : Nat) :
    Sim m (only φ.tag s.arr m.next) (hUnsplice φ s p) (GB.unsplice l p)
      (fun s' l' m' => Sl φ m' F s' l' ∧ (s'.arr = s.arr ∨ m.next ≤ s'.arr)) := by
  unfold hUnsplice GB.unsplice
  rw [h.length]
  by_cases hp : p < s.len
  · simp only [hp]
    obtain ⟨m', s', e, h', ha, hk, -⟩ := append_ok hφ hF (h.prefix (p := p) hp.le) (l.drop (p + 1))
    rw [if_pos trivial, if_pos trivial]
    unfold Sim
    rw [bind_ok (a := l) (m' := m) (by simp [hRead, h.eq]), e]
    exact ⟨⟨h', ha⟩, hk⟩
  · simp only [hp, if_false]; exact Sim.panic

include hφ in
theorem Sim.splice (hF : ∀ t a, m.next ≤ a → F t a) (h : Sl φ m F s l) (p : Nat) (a : α) :
    Sim m (only φ.tag s.arr m.next) (hSplice φ s p a) (GB.splice l p a)
      (fun s' l' m' => Sl φ m' F s' l' ∧ (s'.arr = s.arr ∨ m.next ≤ s'.arr)) := by
  unfold hSplice GB.splice
  rw [h.length]
  by_cases hp : p ≤ s.len
  · simp only [hp]
    obtain ⟨m1, t1, e1, ht1, a1, n1, -, -, k1⟩ := alloc_ok hφ (F := F) m (hF _ _ (le_refl _)) [a]
    have h1 : Sl φ m1 F s l := h.keep hφ k1 (by have := h.lt; simp [fresh]; omega)
    have hF1 : ∀ t a, m1.next ≤ a → F t a := fun t a ha => hF t a (by omega)
    obtain ⟨m2, t2, e2, ht2, a2, k2, -⟩ := append_ok hφ hF1 ht1 (l.drop p)
    have h2 : Sl φ m2 F s l := h1.keep hφ k2 (by have := h.lt; simp [only]; omega)
    have hF2 : ∀ t a, m2.next ≤ a → F t a := fun t a ha => hF t a (by have := k2.1; omega)
    obtain ⟨m3, t3, e3, ht3, a3, k3, -⟩ := append_ok hφ hF2 (h2.prefix (p := p) hp) ([a] ++ l.drop p)
    rw [if_pos trivial, if_pos trivial]
    unfold Sim
    rw [bind_ok e1, bind_ok (a := l) (m' := m1) (by simp [hRead, h1.eq]), bind_ok e2,
      bind_ok (a := [a] ++ l.drop p) (m' := m2) (by simp [hRead, ht2.eq]), e3]
    have := k2.1
    refine ⟨⟨by simpa using ht3, by rcases a3 with e | e; exacts [Or.inl e, Or.inr (by omega)]⟩, ?_⟩
    refine ((k1.mono fun t b hb => Or.inr hb).trans (k2.mono fun t b hb => ?_)).trans (k3.mono fun t b hb => ?_)
    · rcases hb with ⟨-, e⟩ | e
      · exact Or.inr (show m.next ≤ b by omega)
      · exact Or.inr (show m.next ≤ b by omega)
    · rcases hb with ⟨e', e⟩ | e
      · exact Or.inl ⟨e', e⟩
      · exact Or.inr (show m.next ≤ b by omega)
  · simp only [hp, if_false]; exact Sim.panic

end

end GB.Share
