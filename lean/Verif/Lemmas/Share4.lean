import Verif.Lemmas.ShareRow
import Verif.SpecShare

/-!
# Programs on several objects in memory
-/

namespace GB.Share

variable {T : Type} [GoNum T] {m m' : Mem T} {F G : Tag → Nat → Prop}

/-- The object holds the value, in arrays of `F`. -/
inductive LMat.Own (m : Mem T) (F : Tag → Nat → Prop) : LMat → Mat T → Prop
  | csr {o v} (h : LCSR.Own m F o v) : Own m F (.csr o) (.csr v)
  | csc {o v} (h : LCSC.Own m F o v) : Own m F (.csc o) (.csc v)
  | dense {o v} (h : LDense.Own m F o v) : Own m F (.dense o) (.dense v)
  | dvec {o v} (h : LDVec.Own m F o v) : Own m F (.dvec o) (.dvec v)
  | svec {o v} (h : LSVec.Own m F o v) : Own m F (.svec o) (.svec v)

namespace LMat

theorem Own.keep {o : LMat} {v : Mat T} (h : Own m F o v) (k : m.Keeps m' G)
    (hG : ∀ t a, G t a → F t a → a < m.next → False) : Own m' F o v := by
  cases h with
  | csr h => exact .csr (h.keep k hG)
  | csc h => exact .csc (h.keep k hG)
  | dense h => exact .dense (h.keep k hG)
  | dvec h => exact .dvec (h.keep k hG)
  | svec h => exact .svec (h.keep k hG)

theorem Own.mono {o : LMat} {v : Mat T} (h : Own m F o v) (hFG : ∀ t a, F t a → a < m.next → G t a) :
    Own m G o v := by
  cases h with
  | csr h => exact .csr (h.mono hFG)
  | csc h => exact .csc (h.mono hFG)
  | dense h => exact .dense (h.mono hFG)
  | dvec h => exact .dvec (h.mono hFG)
  | svec h => exact .svec (h.mono hFG)

theorem rows_view {n : Nat} {hs : List Slice} {D : List (List T)} (h : Rows m F n hs D) (hn : hs.length ≤ n) :
    hs.map (fun s => s.get numF m) = D := by
  apply List.ext_getElem
  · simpa using h.len
  · intro i h1 h2
    have h1' : i < hs.length := by simpa using h1
    rw [List.getElem_map]
    exact (h.row i hs[i] D[i] (by omega) (by simp [h1']) (by simp [h2])).eq

/-- What an object holds can be read off the memory. -/
theorem Own.view {o : LMat} {v : Mat T} (h : Own m F o v) : o.view m = v := by
  cases h with
  | csr h => obtain ⟨h1, h2, h3, h4, h5, -⟩ := h; simp only [LMat.view, h1, h2, h3.eq, h4.eq, h5.eq]
  | csc h => obtain ⟨h1, h2, h3, h4, h5, -⟩ := h; simp only [LMat.view, h1, h2, h3.eq, h4.eq, h5.eq]
  | dense h =>
    obtain ⟨h1, h2, hs, h3, h4⟩ := h
    simp only [LMat.view, h1, h2, h3.eq, rows_view h4 (le_refl _)]
  | dvec h => obtain ⟨h1, h3⟩ := h; simp only [LMat.view, h1, h3.eq]
  | svec h => obtain ⟨h1, h3, h4⟩ := h; simp only [LMat.view, h1, h3.eq, h4.eq]

end LMat

theorem LCSR.update_sim (hF : ∀ t a, m.next ≤ a → F t a) {o : LCSR} {v : CSR T} (h : o.Own m F v) (r c : Int) (f : T → T) :
    Sim m F (o.updateWith r c fun x => ((), f x)) (v.update r c f) (fun p q m' => LCSR.Own m' F p.2 q) := by
  unfold CSR.update
  exact Sim.right (g := Prod.snd) (LCSR.updateWith_sim hF h r c _) fun _ _ _ h => h.2

theorem LCSC.update_sim (hF : ∀ t a, m.next ≤ a → F t a) {o : LCSC} {v : CSC T} (h : o.Own m F v) (r c : Int) (f : T → T) :
    Sim m F (o.updateWith r c fun x => ((), f x)) (v.update r c f) (fun p q m' => LCSC.Own m' F p.2 q) := by
  unfold CSC.update
  exact Sim.right (g := Prod.snd) (LCSC.updateWith_sim hF h r c _) fun _ _ _ h => h.2

theorem LDense.update_sim (hF : ∀ t a, m.next ≤ a → F t a) {o : LDense} {v : Dense T} (h : o.Own m F v) (r c : Int) (f : T → T) :
    Sim m F (o.updateWith r c fun x => ((), f x)) (v.update r c f) (fun p q m' => LDense.Own m' F p.2 q) := by
  unfold Dense.update
  exact Sim.right (g := Prod.snd) (LDense.updateWith_sim hF h r c _) fun _ _ _ h => h.2

theorem LDVec.update_sim (hF : ∀ t a, m.next ≤ a → F t a) {o : LDVec} {v : DVec T} (h : o.Own m F v) (r c : Int) (f : T → T) :
    Sim m F (o.updateWith r c fun x => ((), f x)) (v.update r c f) (fun p q m' => LDVec.Own m' F p.2 q) := by
  unfold DVec.update
  exact Sim.right (g := Prod.snd) (LDVec.updateWith_sim hF h r c _) fun _ _ _ h => h.2

theorem LSVec.update_sim (hF : ∀ t a, m.next ≤ a → F t a) {o : LSVec} {v : SVec T} (h : o.Own m F v) (r c : Int) (f : T → T) :
    Sim m F (o.updateWith r c fun x => ((), f x)) (v.update r c f) (fun p q m' => LSVec.Own m' F p.2 q) := by
  unfold SVec.update
  exact Sim.right (g := Prod.snd) (LSVec.updateWith_sim hF h r c _) fun _ _ _ h => h.2

namespace LMat

variable {o : LMat} {v : Mat T}

theorem set_sim (hF : ∀ t a, m.next ≤ a → F t a) (h : o.Own m F v) (r c : Int) (x : T) :
    Sim m F (o.set r c x) (v.set r c x) (fun o' v' m' => LMat.Own m' F o' v') := by
  cases h with
  | csr h => exact Sim.map (LCSR.update_sim hF h r c fun _ => x) fun _ _ _ h => .csr h
  | csc h => exact Sim.map (LCSC.update_sim hF h r c fun _ => x) fun _ _ _ h => .csc h
  | dense h => exact Sim.map (LDense.set_sim hF h r c x) fun _ _ _ h => .dense h
  | dvec h => exact Sim.map (LDVec.set_sim hF h r c x) fun _ _ _ h => .dvec h
  | svec h => exact Sim.map (LSVec.set_sim hF h r c x) fun _ _ _ h => .svec h

theorem update_sim (hF : ∀ t a, m.next ≤ a → F t a) (h : o.Own m F v) (r c : Int) (f : T → T) :
    Sim m F (o.update r c f) (v.update r c f) (fun o' v' m' => LMat.Own m' F o' v') := by
  cases h with
  | csr h => exact Sim.map (LCSR.update_sim hF h r c f) fun _ _ _ h => .csr h
  | csc h => exact Sim.map (LCSC.update_sim hF h r c f) fun _ _ _ h => .csc h
  | dense h => exact Sim.map (LDense.update_sim hF h r c f) fun _ _ _ h => .dense h
  | dvec h => exact Sim.map (LDVec.update_sim hF h r c f) fun _ _ _ h => .dvec h
  | svec h => exact Sim.map (LSVec.update_sim hF h r c f) fun _ _ _ h => .svec h

theorem at_sim (hF : ∀ t a, m.next ≤ a → F t a) (h : o.Own m F v) (r c : Int) :
    Sim m F (o.at' r c) (v.at' r c) (fun p q m' => p.1 = q.1 ∧ LMat.Own m' F p.2 q.2) := by
  cases h with
  | csr h => exact Sim.map (LCSR.updateWith_sim hF h r c fun x => (x, x)) fun _ _ _ h => ⟨h.1, .csr h.2⟩
  | csc h => exact Sim.map (LCSC.updateWith_sim hF h r c fun x => (x, x)) fun _ _ _ h => ⟨h.1, .csc h.2⟩
  | dense h => exact Sim.map (LDense.at_sim h r c) fun _ _ _ e => ⟨e.1, by rw [e.2]; exact .dense h⟩
  | dvec h => exact Sim.map (LDVec.atVec_sim h r) fun _ _ _ e => ⟨e.1, by rw [e.2]; exact .dvec h⟩
  | svec h => exact Sim.map (LSVec.updateWith_sim hF h r c fun x => (x, x)) fun _ _ _ h => ⟨h.1, .svec h.2⟩

theorem element_sim (hF : ∀ t a, m.next ≤ a → F t a) (h : o.Own m F v) (r c : Int) :
    Sim m F (o.element r c) (v.element r c) (fun p q m' => p.1 = q.1 ∧ LMat.Own m' F p.2 q.2) := by
  cases h with
  | csr h => exact Sim.map (LCSR.updateWith_sim hF h r c fun x => (GoNum.glt 0 x, x)) fun _ _ _ h => ⟨h.1, .csr h.2⟩
  | csc h => exact Sim.map (LCSC.updateWith_sim hF h r c fun x => (GoNum.glt 0 x, x)) fun _ _ _ h => ⟨h.1, .csc h.2⟩
  | dense h => exact Sim.map (LDense.element_sim h r c) fun _ _ _ e => ⟨e.1, by rw [e.2]; exact .dense h⟩
  | dvec h => exact Sim.map (LDVec.element_sim h r c) fun _ _ _ e => ⟨e.1, by rw [e.2]; exact .dvec h⟩
  | svec h => exact Sim.map (LSVec.element_sim h r c) fun _ _ _ e => ⟨e.1, by rw [e.2]; exact .svec h⟩

theorem clear_sim (hF : ∀ t a, m.next ≤ a → F t a) (h : o.Own m F v) :
    Sim m F (o.clear : H T LMat) (.ok v.clear) (fun o' v' m' => LMat.Own m' F o' v') := by
  cases h with
  | csr h => exact Sim.map (g := Mat.csr) (LCSR.clear_sim hF h) fun _ _ _ h => .csr h
  | csc h => exact Sim.map (g := Mat.csc) (LCSC.clear_sim hF h) fun _ _ _ h => .csc h
  | dense h => exact Sim.map (g := Mat.dense) (LDense.clear_sim hF h) fun _ _ _ h => .dense h
  | dvec h => exact Sim.map (g := Mat.dvec) (LDVec.clear_sim hF h) fun _ _ _ h => .dvec h
  | svec h => exact Sim.map (g := Mat.svec) (LSVec.clear_sim hF h) fun _ _ _ h => .svec h

theorem put_sim (hF : ∀ t a, m.next ≤ a → F t a) (h : o.Own m F v) (it : Mat.Iter) (x : T) :
    Sim m F (o.put it x) (v.put it x) (fun o' v' m' => LMat.Own m' F o' v') := by
  cases h with
  | csr h =>
    cases it with
    | csr it => exact Sim.map (LCSR.put_sim hF h it x) fun _ _ _ h => .csr h
    | _ => exact Sim.panic
  | csc h =>
    cases it with
    | csc it => exact Sim.map (LCSC.put_sim hF h it x) fun _ _ _ h => .csc h
    | _ => exact Sim.panic
  | dense h =>
    cases it with
    | dense it => exact Sim.map (LDense.put_sim hF h it x) fun _ _ _ h => .dense h
    | _ => exact Sim.panic
  | dvec h =>
    cases it with
    | dvec it => exact Sim.map (LDVec.put_sim hF h it x) fun _ _ _ h => .dvec h
    | _ => exact Sim.panic
  | svec h =>
    cases it with
    | svec it => exact Sim.map (LSVec.put_sim hF h it x) fun _ _ _ h => .svec h
    | _ => exact Sim.panic

theorem copy_sim (hF : ∀ t a, m.next ≤ a → F t a) (h : o.Own m G v) :
    Sim m (fresh m.next) (o.copy : H T LMat) v.copy (fun o' v' m' => LMat.Own m' F o' v') := by
  cases h with
  | csr h => exact Sim.map (LCSR.copy_sim hF h) fun _ _ _ h => .csr h
  | csc h => exact Sim.map (LCSC.copy_sim hF h) fun _ _ _ h => .csc h
  | dense h => exact Sim.map (LDense.copy_sim hF h) fun _ _ _ h => .dense h
  | dvec h => exact Sim.map (LDVec.copy_sim hF h) fun _ _ _ h => .dvec h
  | svec h => exact Sim.map (LSVec.copy_sim hF h) fun _ _ _ h => .svec h

theorem rowsAt_sim (h : o.Own m G v) (r : Int) :
    Sim m (fresh m.next) (o.rowsAt r : H T LMat) (v.rowsAt r) (fun o' w m' => LMat.Own m' (fresh m.next) o' w.toMat) := by
  cases h with
  | csr h => exact Sim.map (LCSR.rowsAt_sim h r) fun _ _ _ h => .svec h
  | csc h => exact Sim.map (LCSC.rowsAt_sim h r) fun _ _ _ h => .svec h
  | dense h => exact Sim.map (LDense.rowsAt_sim h r) fun _ _ _ h => .dvec h
  | dvec h => exact Sim.map (LDVec.rowsAt_sim h r) fun _ _ _ h => .dvec h
  | svec h => exact Sim.map (LSVec.rowsAt_sim h r) fun _ _ _ h => .svec h

theorem columnsAt_sim (h : o.Own m G v) (c : Int) :
    Sim m (fresh m.next) (o.columnsAt c : H T LMat) (v.columnsAt c) (fun o' w m' => LMat.Own m' (fresh m.next) o' w.toMat) := by
  cases h with
  | csr h => exact Sim.map (LCSR.columnsAt_sim h c) fun _ _ _ h => .svec h
  | csc h => exact Sim.map (LCSC.columnsAt_sim h c) fun _ _ _ h => .svec h
  | dense h => exact Sim.map (LDense.columnsAt_sim h c) fun _ _ _ h => .dvec h
  | dvec h => exact Sim.map (LDVec.columnsAt_sim h c) fun _ _ _ h => .dvec h
  | svec h => exact Sim.map (LSVec.columnsAt_sim h c) fun _ _ _ h => .svec h

theorem rowsAtToArray_sim (h : o.Own m G v) (r : Int) :
    Sim m (fresh m.next) (o.rowsAtToArray r : H T Slice) (v.rowsAtToArray r) (fun s l m' => Sl numF m' (fresh m.next) s l) := by
  cases h with
  | csr h => exact LCSR.rowsAtToArray_sim h r
  | csc h => exact LCSC.rowsAtToArray_sim h r
  | dense h => exact LDense.rowsAtToArray_sim h r
  | dvec h => exact LDVec.rowsAtToArray_sim h r
  | svec h => exact LSVec.rowsAtToArray_sim h r

end LMat

/-- Every call does in memory what it does on the value. -/
theorem call_sim (hF : ∀ t a, m.next ≤ a → F t a) {o : LMat} {v : Mat T} (h : o.Own m F v) (f : Call T) :
    Sim m F (f.low o) (f.high v) (fun o' v' m' => LMat.Own m' F o' v') := by
  cases f with
  | op p =>
    cases p with
    | set i j x => exact LMat.set_sim hF h i j x
    | update i j f => exact LMat.update_sim hF h i j f
    | clear => exact LMat.clear_sim hF h
    | read i j => exact Sim.map (LMat.at_sim hF h i j) fun _ _ _ h => h.2
    | element i j => exact Sim.map (LMat.element_sim hF h i j) fun _ _ _ h => h.2
  | put it x => exact LMat.put_sim hF h it x
  | reSize n =>
    cases h with
    | dvec h => exact Sim.map (LDVec.reSize_sim hF h n) fun _ _ _ h => .dvec h
    | _ => exact Sim.panic

/-! ## Pools of objects -/

/-- Objects that hold these values, each in arrays of its own; none of them below `N`. -/
structure Pool (m : Mem T) (N : Nat) (os : List LMat) (vs : List (Mat T)) : Prop where
  len : os.length = vs.length
  le : N ≤ m.next
  own : ∃ Fs : Nat → Tag → Nat → Prop,
    (∀ k t a, Fs k t a → N ≤ a ∧ a < m.next) ∧
    (∀ j k t a, Fs j t a → Fs k t a → j = k) ∧
    ∀ (k : Nat) (o : LMat) (v : Mat T), os[k]? = some o → vs[k]? = some v → o.Own m (Fs k) v

theorem Pool.view {N : Nat} {os : List LMat} {vs : List (Mat T)} (h : Pool m N os vs) :
    os.map (fun o => o.view m) = vs := by
  obtain ⟨Fs, -, -, h3⟩ := h.own
  apply List.ext_getElem
  · simpa using h.len
  · intro i h1 h2
    have h1' : i < os.length := by simpa using h1
    rw [List.getElem_map]
    exact (h3 i os[i] vs[i] (by simp [h1']) (by simp [h2])).view

/-- Replacing one object by the outcome of a computation confined to its arrays and fresh ones. -/
theorem Pool.step {N k : Nat} {os : List LMat} {vs : List (Mat T)} (h : Pool m N os vs)
    {x : LMat → H T LMat} {y : Mat T → Out (Mat T)}
    (hx : ∀ F o v, (∀ t a, m.next ≤ a → F t a) → o.Own m F v → Sim m F (x o) (y v) (fun o' v' m' => o'.Own m' F v')) :
    Sim m (fresh N) (do let o ← lift (idx os k); let o' ← x o; pure (os.set k o'))
      (do let v ← idx vs k; let v' ← y v; .ok (vs.set k v')) (fun os' vs' m' => Pool m' N os' vs') := by
  have hlen := h.len
  have hle := h.le
  obtain ⟨Fs, h1, h2, h3⟩ := h.own
  by_cases hk : k < os.length
  swap
  · have e1 : idx os k = .panic := by simp [idx, List.getElem?_eq_none (not_lt.1 hk)]
    have e2 : idx vs k = .panic := by simp [idx, List.getElem?_eq_none (by omega : vs.length ≤ k)]
    rw [e1, e2]
    exact Sim.bind (R := fun _ _ _ => False) Sim.panic (G := fresh N) (fun _ _ h => h) fun _ _ _ h => h.elim
  have hk' : k < vs.length := by omega
  rw [idx_ok hk, idx_ok hk']
  refine Sim.left (G := fresh N) (rfl : lift (.ok os[k]) m = .ok os[k] m) .refl (fun _ _ h => h) ?_
  rw [Out.ok_bind]
  have ho := h3 k os[k] vs[k] (by simp [hk]) (by simp [hk'])
  refine Sim.bind (hx (fun t a => Fs k t a ∨ m.next ≤ a) _ _ (fun t a e => Or.inr e) (ho.mono fun t a e _ => Or.inl e)) ?_ ?_
  · rintro t a (e | e)
    · exact (h1 k t a e).1
    · exact hle.trans e
  intro o' v' m' hq kq
  have hn := kq.1
  refine Sim.pure ⟨by simpa using hlen, hle.trans hn, fun j t a => (Fs j t a ∨ (j = k ∧ m.next ≤ a ∧ a < m'.next)), ?_, ?_, ?_⟩
  · rintro j t a (e | ⟨-, e⟩)
    · have := h1 j t a e; exact ⟨this.1, by omega⟩
    · exact ⟨by omega, e.2⟩
  · rintro i j t a (e | ⟨rfl, e⟩) (e' | ⟨rfl, e'⟩)
    · exact h2 i j t a e e'
    · have := h1 _ _ _ e; omega
    · have := h1 _ _ _ e'; omega
    · rfl
  · intro j o v hj hj'
    rw [List.getElem?_set] at hj hj'
    by_cases hjk : k = j
    · subst hjk
      rw [if_pos rfl, if_pos hk] at hj
      rw [if_pos rfl, if_pos hk'] at hj'
      cases hj; cases hj'
      exact hq.mono fun t a e hl => by
        rcases e with e | e
        · exact Or.inl e
        · exact Or.inr ⟨rfl, e, hl⟩
    · rw [if_neg hjk] at hj hj'
      refine ((h3 j o v hj hj').keep kq ?_).mono fun t a e _ => Or.inl e
      rintro t a (e | e) e' hl
      · exact hjk (h2 _ _ _ _ e e')
      · omega

/-- Adding an object made of fresh arrays. -/
theorem Pool.add {N : Nat} {os : List LMat} {vs : List (Mat T)} (h : Pool m N os vs) {α β : Type} {x : H T α} {y : Out β}
    (w : α → LMat) (u : β → Mat T)
    (hx : Sim m (fresh m.next) x y (fun o' v' m' => (w o').Own m' (fresh m.next) (u v'))) :
    Sim m (fresh N) (do let o ← x; pure (os ++ [w o])) (do let v ← y; .ok (vs ++ [u v])) (fun os' vs' m' => Pool m' N os' vs') := by
  have hlen := h.len
  have hle := h.le
  obtain ⟨Fs, h1, h2, h3⟩ := h.own
  refine Sim.bind hx (fun t a e => hle.trans e) ?_
  intro o' v' m' hq kq
  have hn := kq.1
  refine Sim.pure ⟨by simpa using hlen, hle.trans hn,
    fun j t a => (j < os.length ∧ Fs j t a ∨ (j = os.length ∧ m.next ≤ a ∧ a < m'.next)), ?_, ?_, ?_⟩
  · rintro j t a (⟨-, e⟩ | ⟨-, e⟩)
    · have := h1 j t a e; exact ⟨this.1, by omega⟩
    · exact ⟨by omega, e.2⟩
  · rintro i j t a (⟨-, e⟩ | ⟨rfl, e⟩) (⟨-, e'⟩ | ⟨rfl, e'⟩)
    · exact h2 i j t a e e'
    · have := h1 _ _ _ e; omega
    · have := h1 _ _ _ e'; omega
    · rfl
  · intro j o v hj hj'
    rcases lt_trichotomy j os.length with hlt | heq | hgt
    · rw [List.getElem?_append_left hlt] at hj
      rw [List.getElem?_append_left (by omega)] at hj'
      refine ((h3 j o v hj hj').keep kq ?_).mono fun t a e _ => Or.inl ⟨hlt, e⟩
      intro t a e _ hl
      simp only [fresh] at e; omega
    · rw [heq, List.getElem?_append_right (le_refl _)] at hj
      rw [heq, hlen, List.getElem?_append_right (le_refl _)] at hj'
      simp only [Nat.sub_self, List.getElem?_cons_zero, Option.some.injEq] at hj hj'
      subst hj; subst hj'
      exact hq.mono fun t a e hl => Or.inr ⟨heq, e, hl⟩
    · rw [List.getElem?_eq_none (by simp; omega)] at hj; cases hj

/-- Adding an object made of fresh arrays, from an existing one. -/
theorem Pool.addFrom {N : Nat} {os : List LMat} {vs : List (Mat T)} (h : Pool m N os vs) {α β : Type} (k : Nat)
    {x : LMat → H T α} {y : Mat T → Out β} (w : α → LMat) (u : β → Mat T)
    (hx : ∀ G o v, o.Own m G v → Sim m (fresh m.next) (x o) (y v) (fun o' v' m' => (w o').Own m' (fresh m.next) (u v'))) :
    Sim m (fresh N) (do let o ← lift (idx os k); let o' ← x o; pure (os ++ [w o']))
      (do let v ← idx vs k; let v' ← y v; .ok (vs ++ [u v'])) (fun os' vs' m' => Pool m' N os' vs') := by
  have hlen := h.len
  obtain ⟨Fs, h1, h2, h3⟩ := h.own
  by_cases hk : k < os.length
  · have hk' : k < vs.length := by omega
    rw [idx_ok hk, idx_ok hk']
    refine Sim.left (G := fresh N) (rfl : lift (.ok os[k]) m = .ok os[k] m) .refl (fun _ _ h => h) ?_
    rw [Out.ok_bind]
    exact h.add w u (hx _ _ _ (h3 k os[k] vs[k] (by simp [hk]) (by simp [hk'])))
  · have e1 : idx os k = .panic := by simp [idx, List.getElem?_eq_none (not_lt.1 hk)]
    have e2 : idx vs k = .panic := by simp [idx, List.getElem?_eq_none (by omega : vs.length ≤ k)]
    rw [e1, e2]
    exact Sim.bind (R := fun _ _ _ => False) Sim.panic (G := fresh N) (fun _ _ h => h) fun _ _ _ h => h.elim

/-- An assignment to an array below `N` is invisible to every object. -/
theorem Pool.poke {N a : Nat} {os : List LMat} {vs : List (Mat T)} (h : Pool m N os vs) (ha : a < N) (l : List T) :
    Pool { m with num := Function.update m.num a l } N os vs := by
  obtain ⟨Fs, h1, h2, h3⟩ := h.own
  refine ⟨h.len, h.le, Fs, h1, h2, fun k o v hk hk' => (h3 k o v hk hk').keep (G := fun t b => t = .num ∧ b = a)
    ((numF_ok (T := T)).keeps m a l) ?_⟩
  rintro t b ⟨-, rfl⟩ e -
  have := (h1 _ _ _ e).1
  omega

/-- The arrays below `N` after some assignments. -/
def Poked (N : Nat) (m m' : Mem T) (as : List (Act T)) : Prop :=
  ∀ a, a < N → m'.num a = poked a (m.num a) as ∧ m'.int a = m.int a ∧ m'.row a = m.row a

theorem act_sim {N : Nat} {os : List LMat} {vs : List (Mat T)} (h : Pool m N os vs) (a : Act T) (ha : Below N [a]) :
    Sim m (fun _ _ => True) (a.low os) (a.high vs) (fun os' vs' m' => Pool m' N os' vs' ∧ Poked N m m' [a]) := by
  have up : ∀ {α β : Type} {x : H T α} {y : Out β} {R : α → β → Mem T → Prop}, (∀ n l, poked n l [a] = l) →
      Sim m (fresh N) x y R → Sim m (fun _ _ => True) x y (fun b c m' => R b c m' ∧ Poked N m m' [a]) := by
    intro α β x y R hp hs
    refine hs.mono (fun _ _ _ => trivial) fun b c m' hR hk => ⟨hR, fun n hn => ?_⟩
    rw [hp]
    exact ⟨hk.2.1 n (not_le.2 hn), hk.2.2.1 n (not_le.2 hn), hk.2.2.2 n (not_le.2 hn)⟩
  have hF : ∀ (t : Tag) a, m.next ≤ a → fresh m.next t a := fun _ _ e => e
  cases a with
  | newCSR r c =>
    exact up (fun _ _ => rfl) (h.add (y := .ok (CSR.new r c)) .csr .csr ((LCSR.newL_sim hF r c 0).mono (fun _ _ e => e) fun _ _ _ h _ => .csr h.1))
  | newCSC r c =>
    exact up (fun _ _ => rfl) (h.add (y := .ok (CSC.new r c)) .csc .csc ((LCSC.newL_sim hF r c 0).mono (fun _ _ e => e) fun _ _ _ h _ => .csc h.1))
  | newDense r c =>
    exact up (fun _ _ => rfl) (h.add (y := .ok (Dense.new r c)) .dense .dense ((LDense.new_sim hF r c).mono (fun _ _ e => e) fun _ _ _ h _ => .dense h))
  | newDVec l =>
    exact up (fun _ _ => rfl) (h.add (y := .ok (DVec.new l)) .dvec .dvec ((LDVec.new_sim hF l).mono (fun _ _ e => e) fun _ _ _ h _ => .dvec h.1))
  | newSVec l =>
    exact up (fun _ _ => rfl) (h.add (y := .ok (SVec.new l)) .svec .svec ((LSVec.newL_sim hF l 0).mono (fun _ _ e => e) fun _ _ _ h _ => .svec h.1))
  | copy k => exact up (fun _ _ => rfl) (h.addFrom k id id fun G o v ho => LMat.copy_sim hF ho)
  | rowsAt k i => exact up (fun _ _ => rfl) (h.addFrom k id Vec.toMat fun G o v ho => LMat.rowsAt_sim ho i)
  | columnsAt k j => exact up (fun _ _ => rfl) (h.addFrom k id Vec.toMat fun G o v ho => LMat.columnsAt_sim ho j)
  | rowArray k i =>
    exact up (fun _ _ => rfl) (h.addFrom k (fun l => .dvec { l := l.len, values := l }) (fun l => .dvec (DVec.fromArray l))
      fun G o v ho => (LMat.rowsAtToArray_sim ho i).mono (fun _ _ e => e) fun _ _ _ hs _ => .dvec ⟨hs.length.symm, hs⟩)
  | call k f => exact up (fun _ _ => rfl) (h.step fun F o v hF ho => call_sim hF ho f)
  | poke b i x =>
    have hb : b < N := ha b i x (by simp)
    refine ⟨⟨h.poke hb _, fun n hn => ⟨?_, rfl, rfl⟩⟩, ?_⟩
    · show Function.update m.num b _ n = _
      by_cases e : b = n
      · subst e; simp [poked]
      · rw [Function.update_of_ne (Ne.symm e)]; simp [poked, e]
    · exact ((numF_ok (T := T)).keeps m b _).mono fun _ _ _ => trivial

omit [GoNum T] in
theorem poked_cons (a : Nat) (l : List T) (x : Act T) (as : List (Act T)) :
    poked a l (x :: as) = poked a (poked a l [x]) as := by
  cases x <;> rfl

/-- A program in memory does what it does on independent values. -/
theorem run_sim {N : Nat} : ∀ (as : List (Act T)) {m : Mem T} {os : List LMat} {vs : List (Mat T)}, Pool m N os vs → Below N as →
    Sim m (fun _ _ => True) (runLow os as) (runHigh vs as) (fun os' vs' m' => Pool m' N os' vs' ∧ Poked N m m' as)
  | [], _, _, _, h, _ => Sim.pure ⟨h, fun _ _ => ⟨rfl, rfl, rfl⟩⟩
  | a :: as, m, os, vs, h, hb => by
    refine Sim.bind (act_sim h a fun b i x hm => hb b i x (by simp at hm; simp [hm])) (fun _ _ _ => trivial) ?_
    rintro os' vs' m' ⟨h1, h2⟩ -
    refine (run_sim as h1 fun b i x hm => hb b i x (List.mem_cons_of_mem _ hm)).mono (fun _ _ _ => trivial) ?_
    rintro os'' vs'' m'' ⟨h3, h4⟩ -
    refine ⟨h3, fun n hn => ?_⟩
    obtain ⟨a1, a2, a3⟩ := h2 n hn
    obtain ⟨b1, b2, b3⟩ := h4 n hn
    exact ⟨by rw [b1, a1, ← poked_cons], b2.trans a2, b3.trans a3⟩

theorem Pool.nil (m : Mem T) : Pool m m.next [] [] :=
  ⟨rfl, le_refl _, fun _ _ _ => False, fun _ _ _ h => h.elim, fun _ _ _ _ h => h.elim, fun k o v h => by simp at h⟩

/-! ## Constructors from arrays -/

theorem Held.sl {data : Slice} {d : List (List T)} (h : Held m data d) :
    ∃ hs, Sl rowF m (fun _ a => a < m.next) data hs ∧ hs.length = d.length ∧
      ∀ (i : Nat) a l, hs[i]? = some a → d[i]? = some l → Sl numF m (fun _ a => a < m.next) a l := by
  refine ⟨_, ⟨h.valid.1, h.valid.1, h.valid.2, rfl⟩, by rw [← h.eq]; simp, ?_⟩
  intro i a l ha hl
  rw [← h.eq, List.getElem?_map, ha] at hl
  cases hl
  have := h.rows a (List.mem_of_getElem? ha)
  exact ⟨this.1, this.1, this.2, rfl⟩

theorem held_row {data : Slice} {hs : List Slice} {d : List (List T)} (h1 : Sl rowF m F data hs) (h2 : hs.length = d.length)
    (h3 : ∀ (i : Nat) a l, hs[i]? = some a → d[i]? = some l → Sl numF m F a l) (i : Nat) :
    Sim m G (hIdx rowF data i : H T Slice) (idx d i) (fun a l m' => m' = m ∧ Sl numF m F a l) := by
  have := Sim.idx (G := G) h1 i
  unfold Sim at this ⊢
  revert this
  by_cases hi : i < hs.length
  · have hd : i < d.length := by omega
    rw [idx_ok hi, idx_ok hd]
    rcases hIdx rowF data i m with ⟨a, m'⟩ | m' | m'
    · rintro ⟨⟨rfl, rfl⟩, k⟩
      exact ⟨⟨rfl, h3 i _ _ (by simp [hi]) (by simp [hd])⟩, k⟩
    · exact fun h => h.elim
    · exact fun h => h.elim
  · have e1 : idx hs i = .panic := by simp [idx, List.getElem?_eq_none (not_lt.1 hi)]
    have e2 : idx d i = .panic := by simp [idx, List.getElem?_eq_none (by omega : d.length ≤ i)]
    rw [e1, e2]
    rcases hIdx rowF data i m with ⟨a, m'⟩ | m' | m'
    · exact fun h => h.elim
    · exact fun h => h
    · exact fun h => h.elim

theorem LCSR.fromArray_sim {data : Slice} {d : List (List T)} (h : Held m data d) :
    Sim m (fresh m.next) (LCSR.fromArray data : H T LCSR) (CSR.fromArray d)
      (fun o v m' => LCSR.Own m' (fresh m.next) o v) := by
  obtain ⟨hs, h1, h2, h3⟩ := h.sl
  have hl : d.length = data.len := by rw [← h2]; exact h1.length
  unfold LCSR.fromArray CSR.fromArray
  refine Sim.bind (held_row (G := fresh m.next) h1 h2 h3 0) (fun _ _ h => h) ?_
  rintro row0 l0 m0 ⟨rfl, h4⟩ -
  rw [h4.length, hl]
  refine Sim.left' (LCSR.newL_sim (F := fresh m0.next) (fun _ _ e => e) data.len row0.len 0) ?_
  intro o m1 ho hk1
  refine (Sim.loop (R := fun o v m' => LCSR.Own m' (fresh m0.next) o v ∧ m0.Keeps m' (fresh m0.next)) _ _ ⟨ho.1, hk1⟩ ?_).mono
    (fun _ _ e => e) fun _ _ _ h _ => h.1
  rintro i o1 v1 m2 - - ⟨ho1, hk2⟩
  refine Sim.loop (R := fun o v m' => LCSR.Own m' (fresh m0.next) o v ∧ m0.Keeps m' (fresh m0.next)) _ _ ⟨ho1, hk2⟩ ?_
  rintro k o2 v2 m3 - - ⟨ho2, hk3⟩
  have g1 := h1.keep rowF_ok hk3 (not_le.2 h1.lt)
  have g3 : ∀ (i : Nat) a l, hs[i]? = some a → d[i]? = some l → Sl numF m3 (fun _ a => a < m0.next) a l :=
    fun i a l ha hl => (h3 i a l ha hl).keep numF_ok hk3 (not_le.2 (h3 i a l ha hl).lt)
  refine Sim.bind (held_row (G := fresh m0.next) g1 h2 g3 i) (fun _ _ h => h) ?_
  rintro row l _ ⟨rfl, g4⟩ -
  refine Sim.bind (Sim.idx (G := fresh m0.next) g4 k) (fun _ _ h => h) ?_
  rintro x _ _ ⟨rfl, rfl⟩ -
  exact Sim.leftMap (f := Prod.snd) (LCSR.update_sim (F := fresh m0.next) (fun _ _ e => hk3.1.trans e) ho2 i k fun _ => x)
    fun _ _ _ h hk => ⟨h, hk3.trans hk⟩

theorem LCSC.fromArray_sim {data : Slice} {d : List (List T)} (h : Held m data d) :
    Sim m (fresh m.next) (LCSC.fromArray data : H T LCSC) (CSC.fromArray d)
      (fun o v m' => LCSC.Own m' (fresh m.next) o v) := by
  obtain ⟨hs, h1, h2, h3⟩ := h.sl
  have hl : d.length = data.len := by rw [← h2]; exact h1.length
  unfold LCSC.fromArray CSC.fromArray
  refine Sim.bind (held_row (G := fresh m.next) h1 h2 h3 0) (fun _ _ h => h) ?_
  rintro row0 l0 m0 ⟨rfl, h4⟩ -
  rw [h4.length, hl]
  refine Sim.left' (LCSC.newL_sim (F := fresh m0.next) (fun _ _ e => e) data.len row0.len 0) ?_
  intro o m1 ho hk1
  refine (Sim.loop (R := fun o v m' => LCSC.Own m' (fresh m0.next) o v ∧ m0.Keeps m' (fresh m0.next)) _ _ ⟨ho.1, hk1⟩ ?_).mono
    (fun _ _ e => e) fun _ _ _ h _ => h.1
  rintro i o1 v1 m2 - - ⟨ho1, hk2⟩
  refine Sim.loop (R := fun o v m' => LCSC.Own m' (fresh m0.next) o v ∧ m0.Keeps m' (fresh m0.next)) _ _ ⟨ho1, hk2⟩ ?_
  rintro k o2 v2 m3 - - ⟨ho2, hk3⟩
  have g1 := h1.keep rowF_ok hk3 (not_le.2 h1.lt)
  have g3 : ∀ (i : Nat) a l, hs[i]? = some a → d[i]? = some l → Sl numF m3 (fun _ a => a < m0.next) a l :=
    fun i a l ha hl => (h3 i a l ha hl).keep numF_ok hk3 (not_le.2 (h3 i a l ha hl).lt)
  refine Sim.bind (held_row (G := fresh m0.next) g1 h2 g3 i) (fun _ _ h => h) ?_
  rintro row l _ ⟨rfl, g4⟩ -
  refine Sim.bind (Sim.idx (G := fresh m0.next) g4 k) (fun _ _ h => h) ?_
  rintro x _ _ ⟨rfl, rfl⟩ -
  exact Sim.leftMap (f := Prod.snd) (LCSC.update_sim (F := fresh m0.next) (fun _ _ e => hk3.1.trans e) ho2 i k fun _ => x)
    fun _ _ _ h hk => ⟨h, hk3.trans hk⟩

theorem LSVec.fromArray_sim {data : Slice} {d : List T} (h : data.Valid numF m) (e : data.get numF m = d) :
    Sim m (fresh m.next) (LSVec.fromArray data : H T LSVec) (SVec.fromArray d)
      (fun o v m' => LSVec.Own m' (fresh m.next) o v) := by
  have h1 : Sl numF m (fun _ a => a < m.next) data d := ⟨h.1, h.1, h.2, e⟩
  unfold LSVec.fromArray SVec.fromArray
  rw [h1.length]
  refine Sim.left' (LSVec.newL_sim (F := fresh m.next) (fun _ _ e => e) data.len 0) ?_
  intro o m1 ho hk1
  refine (Sim.loop (R := fun o v m' => LSVec.Own m' (fresh m.next) o v ∧ m.Keeps m' (fresh m.next)) _ _ ⟨ho.1, hk1⟩ ?_).mono
    (fun _ _ e => e) fun _ _ _ h _ => h.1
  rintro i o1 v1 m2 - - ⟨ho1, hk2⟩
  have g1 := h1.keep numF_ok hk2 (not_le.2 h1.lt)
  refine Sim.bind (Sim.idx (G := fresh m.next) g1 i) (fun _ _ h => h) ?_
  rintro x _ _ ⟨rfl, rfl⟩ -
  exact (LSVec.setVec_sim (F := fresh m.next) (fun _ _ e => hk2.1.trans e) ho1 i x).mono (fun _ _ e => e)
    fun _ _ _ h hk => ⟨h, hk2.trans hk⟩

/-- A single object in fresh arrays is a pool. -/
theorem Pool.single {o : LMat} {v : Mat T} {N : Nat} (hN : N ≤ m.next) (h : o.Own m (fresh N) v) : Pool m N [o] [v] := by
  refine ⟨rfl, hN, fun k t a => k = 0 ∧ N ≤ a ∧ a < m.next, fun k t a h => h.2, fun j k t a h h' => h.1.trans h'.1.symm, ?_⟩
  intro k o' v' ho hv
  cases k with
  | zero =>
    simp only [List.getElem?_cons_zero, Option.some.injEq] at ho hv
    subst ho; subst hv
    exact h.mono fun t a e hl => ⟨rfl, e, hl⟩
  | succ k => simp at ho

end GB.Share
