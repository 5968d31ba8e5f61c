import Verif.Lemmas.Share4
import Verif.Lemmas.History

/-!
# Programs on several objects: what each object's own calls make of it
-/

set_option linter.unusedSectionVars false

namespace GB.Share

variable {T : Type} [GoNum T]

/-- Actions that add one object made from another. -/
theorem grow_ok {α : Type} {j : Nat} {vs vs' : List (Mat T)} {y : Mat T → Out α} {u : α → Mat T} {as : List (Act T)}
    (h : ((do let v ← idx vs j; let v' ← y v; Out.ok (vs ++ [u v'])) >>= fun w => runHigh w as) = .ok vs') :
    ∃ v v', vs[j]? = some v ∧ y v = .ok v' ∧ runHigh (vs ++ [u v']) as = .ok vs' := by
  by_cases hj : j < vs.length
  · rw [idx_ok hj] at h
    cases e2 : y vs[j] with
    | ok w' => simp only [Out.ok_bind, e2] at h; exact ⟨vs[j], w', by simp [hj], e2, h⟩
    | panic => simp [e2] at h
    | hang => simp [e2] at h
  · have e1 : idx vs j = .panic := by simp [idx, List.getElem?_eq_none (not_lt.1 hj)]
    simp [e1] at h

theorem runHigh_calls {k : Nat} : ∀ (as : List (Act T)) {vs vs' : List (Mat T)} {v : Mat T}, vs[k]? = some v →
    runHigh vs as = .ok vs' → ∃ v', vs'[k]? = some v' ∧ runCalls v (callsOn k as) = .ok v'
  | [], vs, vs', v, hv, h => by cases h; exact ⟨v, hv, rfl⟩
  | a :: as, vs, vs', v, hv, h => by
    have hk : k < vs.length := (List.getElem?_eq_some_iff.1 hv).1
    have grow : ∀ x, (runHigh (vs ++ [x]) as = .ok vs') → ∃ v', vs'[k]? = some v' ∧ runCalls v (callsOn k as) = .ok v' :=
      fun x hx => runHigh_calls as (by rw [List.getElem?_append_left hk]; exact hv) hx
    cases a with
    | newCSR r c => exact grow _ h
    | newCSC r c => exact grow _ h
    | newDense r c => exact grow _ h
    | newDVec l => exact grow _ h
    | newSVec l => exact grow _ h
    | poke a i x => exact runHigh_calls as hv h
    | copy j => obtain ⟨v1, v2, -, -, h⟩ := grow_ok (u := id) h; exact grow _ h
    | rowsAt j i => obtain ⟨v1, v2, -, -, h⟩ := grow_ok (u := Vec.toMat) h; exact grow _ h
    | columnsAt j i => obtain ⟨v1, v2, -, -, h⟩ := grow_ok (u := Vec.toMat) h; exact grow _ h
    | rowArray j i => obtain ⟨v1, v2, -, -, h⟩ := grow_ok (u := fun l => .dvec (DVec.fromArray l)) h; exact grow _ h
    | call j f =>
      have h' : ((do let v ← idx vs j; let v' ← f.high v; Out.ok (vs.set j v')) >>= fun w => runHigh w as) = .ok vs' := h
      cases e : idx vs j with
      | ok w =>
        rw [e] at h'
        cases e2 : f.high w with
        | ok w' =>
          simp only [Out.ok_bind, e2] at h'
          by_cases hjk : j = k
          · subst hjk
            rw [idx_ok hk] at e
            have : vs[j] = v := by simpa [hk] using hv
            rw [this] at e; cases e
            obtain ⟨v', h1, h2⟩ := runHigh_calls (v := w') as (by rw [List.getElem?_set, if_pos rfl, if_pos hk]) h'
            exact ⟨v', h1, by simp [callsOn, runCalls, e2, h2]⟩
          · obtain ⟨v', h1, h2⟩ := runHigh_calls (v := v) as (by rw [List.getElem?_set, if_neg hjk]; exact hv) h'
            exact ⟨v', h1, by rw [callsOn, if_neg hjk]; exact h2⟩
        | panic => simp [e2] at h'
        | hang => simp [e2] at h'
      | panic => simp [e] at h'
      | hang => simp [e] at h'

theorem sim_ok {α β : Type} {m m' : Mem T} {F : Tag → Nat → Prop} {x : H T α} {y : Out β} {R : α → β → Mem T → Prop} {a : α}
    (h : Sim m F x y R) (e : x m = .ok a m') : ∃ b, y = .ok b ∧ R a b m' ∧ m.Keeps m' F := by
  unfold Sim at h
  rw [e] at h
  rcases y with b | _ | _
  · exact ⟨b, rfl, h⟩
  · exact h.elim
  · exact h.elim

theorem sim_ok' {α β : Type} {m : Mem T} {F : Tag → Nat → Prop} {x : H T α} {b : β} {R : α → β → Mem T → Prop}
    (h : Sim m F x (.ok b) R) : ∃ a m', x m = .ok a m' ∧ R a b m' ∧ m.Keeps m' F := by
  unfold Sim at h
  rcases e : x m with ⟨a, m'⟩ | m' | m' <;> rw [e] at h
  · exact ⟨a, m', rfl, h⟩
  · exact h.elim
  · exact h.elim


theorem slice_getElem_valid {α : Type} {φ : Fld T α} {m : Mem T} {F : Tag → Nat → Prop} {s : Slice} (h : s.Valid φ m)
    (hF : F φ.tag s.arr) : Sl φ m F s (s.get φ m) := ⟨hF, h.1, h.2, rfl⟩

theorem LMat.Good.own {m : Mem T} {o : LMat} (h : o.Good m) : o.Own m (fun t a => o.Uses m t a) (o.view m) := by
  cases o with
  | csr o => exact .csr ⟨rfl, rfl, slice_getElem_valid h.1 (.inl ⟨rfl, rfl⟩), slice_getElem_valid h.2.1 (.inr ⟨rfl, .inl rfl⟩),
      slice_getElem_valid h.2.2.1 (.inr ⟨rfl, .inr rfl⟩), h.2.2.2⟩
  | csc o => exact .csc ⟨rfl, rfl, slice_getElem_valid h.1 (.inl ⟨rfl, rfl⟩), slice_getElem_valid h.2.1 (.inr ⟨rfl, .inl rfl⟩),
      slice_getElem_valid h.2.2.1 (.inr ⟨rfl, .inr rfl⟩), h.2.2.2⟩
  | dvec o => exact .dvec ⟨rfl, slice_getElem_valid h ⟨rfl, rfl⟩⟩
  | svec o => exact .svec ⟨rfl, slice_getElem_valid h.1 (.inl ⟨rfl, rfl⟩), slice_getElem_valid h.2 (.inr ⟨rfl, rfl⟩)⟩
  | dense o =>
    refine .dense ⟨rfl, rfl, _, slice_getElem_valid h.1 (.inl ⟨rfl, rfl⟩), by simp, ?_, ?_⟩
    · intro i s d _ hs hd
      rw [List.getElem?_map, hs] at hd
      simp at hd; subst hd
      exact slice_getElem_valid (h.2.1 s (List.mem_of_getElem? hs)) (.inr ⟨rfl, s, List.mem_of_getElem? hs, rfl⟩)
    · intro i j s s' hi hj hij hs hs' e
      have hn := h.2.2
      rw [List.nodup_iff_injective_get] at hn
      have := @hn ⟨i, by simpa using hi⟩ ⟨j, by simpa using hj⟩ (by
        have h1 := (List.getElem?_eq_some_iff.1 hs).2
        have h2 := (List.getElem?_eq_some_iff.1 hs').2
        simp [h1, h2, e])
      exact hij (by simpa using this)

theorem LMat.Own.good {m : Mem T} {F : Tag → Nat → Prop} {o : LMat} {v : Mat T} (h : o.Own m F v) :
    o.Good m ∧ ∀ t a, o.Uses m t a → F t a := by
  cases h with
  | csr h =>
    refine ⟨⟨⟨h.values.lt, h.values.fit⟩, ⟨h.cols.lt, h.cols.fit⟩, ⟨h.rowStart.lt, h.rowStart.fit⟩, h.ne⟩, ?_⟩
    rintro t a (⟨rfl, rfl⟩ | ⟨rfl, rfl | rfl⟩)
    exacts [h.values.mem, h.cols.mem, h.rowStart.mem]
  | csc h =>
    refine ⟨⟨⟨h.values.lt, h.values.fit⟩, ⟨h.rows.lt, h.rows.fit⟩, ⟨h.colStart.lt, h.colStart.fit⟩, h.ne⟩, ?_⟩
    rintro t a (⟨rfl, rfl⟩ | ⟨rfl, rfl | rfl⟩)
    exacts [h.values.mem, h.rows.mem, h.colStart.mem]
  | dvec h =>
    refine ⟨⟨h.values.lt, h.values.fit⟩, ?_⟩
    rintro t a ⟨rfl, rfl⟩
    exact h.values.mem
  | svec h =>
    refine ⟨⟨⟨h.values.lt, h.values.fit⟩, ⟨h.indices.lt, h.indices.fit⟩⟩, ?_⟩
    rintro t a (⟨rfl, rfl⟩ | ⟨rfl, rfl⟩)
    exacts [h.values.mem, h.indices.mem]
  | @dense o v h =>
    obtain ⟨hs, h1, h2⟩ := h.data
    have row : ∀ s ∈ hs, ∃ d, Sl numF m F s d := by
      intro s hm
      obtain ⟨i, hi, e⟩ := List.getElem_of_mem hm
      exact ⟨v.data[i]'(by rw [← h2.len]; exact hi), h2.row i s _ hi (by simp [hi, e]) (by simp)⟩
    refine ⟨⟨⟨h1.lt, h1.fit⟩, ?_, ?_⟩, ?_⟩
    · rw [h1.eq]
      intro s hm
      obtain ⟨d, hd⟩ := row s hm
      exact ⟨hd.lt, hd.fit⟩
    · rw [h1.eq, List.nodup_iff_injective_get]
      rintro ⟨i, hi⟩ ⟨j, hj⟩ e
      simp at hi hj
      by_contra hne
      exact h2.ne i j hs[i] hs[j] hi hj (by simpa using hne) (by simp [hi]) (by simp [hj]) (by simpa using e)
    · rintro t a (⟨rfl, rfl⟩ | ⟨rfl, s, hm, rfl⟩)
      · exact h1.mem
      · rw [h1.eq] at hm
        obtain ⟨d, hd⟩ := row s hm
        exact hd.mem

theorem LMat.Own.uses_lt {m : Mem T} {F : Tag → Nat → Prop} {o : LMat} {v : Mat T} (h : o.Own m F v) {t : Tag} {a : Nat}
    (hu : o.Uses m t a) : a < m.next :=
  ((h.mono (G := fun _ a => a < m.next) fun _ _ _ h => h).good.2 t a hu)

theorem Apart.pool {m : Mem T} {N : Nat} {os : List LMat} (h : Apart m N os) : Pool m N os (os.map fun o => o.view m) := by
  refine ⟨by simp, h.le, fun k t a => ∃ o, os[k]? = some o ∧ o.Uses m t a, ?_, ?_, ?_⟩
  · rintro k t a ⟨o, ho, hu⟩
    have hm := List.mem_of_getElem? ho
    exact ⟨h.above o hm t a hu, (h.good o hm).own.uses_lt hu⟩
  · rintro j k t a ⟨o, ho, hu⟩ ⟨p, hp, hu'⟩
    exact h.apart j k o p t a ho hp hu hu'
  · intro k o v ho hv
    rw [List.getElem?_map, ho] at hv
    simp at hv; subst hv
    exact (h.good o (List.mem_of_getElem? ho)).own.mono fun t a e _ => ⟨o, ho, e⟩

theorem Pool.apart {m : Mem T} {N : Nat} {os : List LMat} {vs : List (Mat T)} (h : Pool m N os vs) : Apart m N os := by
  have hlen := h.len
  obtain ⟨Fs, h1, h2, h3⟩ := h.own
  have own : ∀ (k : Nat) o, os[k]? = some o → ∃ v, o.Own m (Fs k) v := by
    intro k o ho
    have hk : k < vs.length := by rw [← hlen]; exact (List.getElem?_eq_some_iff.1 ho).1
    exact ⟨vs[k], h3 k o vs[k] ho (by simp [hk])⟩
  refine ⟨h.le, ?_, ?_, ?_⟩
  · intro o ho
    obtain ⟨k, hk, e⟩ := List.getElem_of_mem ho
    obtain ⟨v, hv⟩ := own k o (by simp [hk, e])
    exact hv.good.1
  · intro o ho t a hu
    obtain ⟨k, hk, e⟩ := List.getElem_of_mem ho
    obtain ⟨v, hv⟩ := own k o (by simp [hk, e])
    exact (h1 k t a (hv.good.2 t a hu)).1
  · intro j k o p t a ho hp hu hu'
    obtain ⟨v, hv⟩ := own j o ho
    obtain ⟨w, hw⟩ := own k p hp
    exact h2 j k t a (hv.good.2 t a hu) (hw.good.2 t a hu')

theorem separate_of {m m1 : Mem T} {o : LMat} {v : Mat T} (h : o.Own m1 (fresh m.next) v) (hk : m.Keeps m1 (fresh m.next)) :
    Separate m m1 o v := by
  have hold : ∀ a, a < m.next → m1.num a = m.num a ∧ m1.int a = m.int a ∧ m1.row a = m.row a := by
    intro a ha
    have hn : ∀ t, ¬ fresh m.next t a := fun t h => by simp only [fresh] at h; omega
    exact ⟨hk.2.1 a (hn _), hk.2.2.1 a (hn _), hk.2.2.2 a (hn _)⟩
  refine ⟨h.view, hold, ?_⟩
  intro as os m2 hb e
  obtain ⟨vs', e2, ⟨hp, hq⟩, -⟩ := sim_ok (run_sim as (Pool.single hk.1 h) hb) e
  constructor
  · obtain ⟨v', h1, h2⟩ := runHigh_calls (k := 0) as rfl e2
    rw [← hp.view, List.getElem?_map] at h1
    cases e3 : os[0]? with
    | none => rw [e3] at h1; simp at h1
    | some o' => rw [e3] at h1; simp at h1; exact ⟨o', rfl, by rw [h1]; exact h2⟩
  · intro a ha
    rw [← (hold a ha).1, ← (hold a ha).2.1, ← (hold a ha).2.2]
    exact hq a ha

theorem copy_reach [GoStore T] {v : Mat T} (hr : Reach v) : v.copy = .ok v := by
  have := hr.inv
  cases v with
  | svec s =>
    have this : s.Weak := this
    simp only [Mat.copy, SVec.copy_eq s this.len, Out.ok_bind]
  | csr s => exact Mat.copy_ok this
  | csc s => exact Mat.copy_ok this
  | dense s => exact Mat.copy_ok this
  | dvec s => exact Mat.copy_ok this

theorem runHigh_copy {vs : List (Mat T)} {k : Nat} {v : Mat T} (hv : vs[k]? = some v) (hc : v.copy = .ok v) :
    runHigh vs [.copy k] = .ok (vs ++ [v]) := by
  have hkv : k < vs.length := (List.getElem?_eq_some_iff.1 hv).1
  have : vs[k] = v := by simpa [hkv] using hv
  simp [runHigh, Act.high, idx_ok hkv, this, hc]

theorem runHigh_runs : ∀ (bs : List (Act T)) (vs : List (Mat T)), (∀ b ∈ bs, ∃ k f, b = .call k f ∧ k < vs.length) →
    (∀ (k : Nat) v, vs[k]? = some v → ∃ w, runCalls v (callsOn k bs) = .ok w) → ∃ vs', runHigh vs bs = .ok vs' := by
  intro bs
  induction bs with
  | nil => intro vs _ _; exact ⟨vs, rfl⟩
  | cons b bs ih =>
    intro vs hc hr
    obtain ⟨k, f, rfl, hk⟩ := hc b (by simp)
    obtain ⟨w, hw⟩ := hr k vs[k] (by simp [hk])
    rw [callsOn, if_pos rfl] at hw
    cases e : f.high vs[k] with
    | panic => simp [runCalls, e] at hw
    | hang => simp [runCalls, e] at hw
    | ok v1 =>
      obtain ⟨vs', hvs⟩ := ih (vs.set k v1) (fun b hb => by simpa using hc b (by simp [hb])) (by
        intro j v hj
        by_cases hjk : k = j
        · subst hjk
          rw [List.getElem?_set, if_pos rfl, if_pos hk] at hj
          cases hj
          exact ⟨w, by simpa [runCalls, e] using hw⟩
        · rw [List.getElem?_set, if_neg hjk] at hj
          obtain ⟨w', h'⟩ := hr j v hj
          rw [callsOn, if_neg hjk] at h'
          exact ⟨w', h'⟩)
      refine ⟨vs', ?_⟩
      show ((do let v ← idx vs k; let v' ← f.high v; Out.ok (vs.set k v')) >>= fun w => runHigh w bs) = .ok vs'
      simp [idx_ok hk, e, hvs]

theorem setVecS_reach {s s' : SVec T} {i : Nat} {x : T} (h : Reach (.svec s)) (e : s.setVec (i : Int) x = .ok s') : Reach (.svec s') := by
  refine .call (.set i 0 x) h ?_
  have hi : i < s.l := by
    by_contra hc
    simp [SVec.setVec, inRange, hc] at e
  simp [Op.apply, Mat.set, SVec.set, hi, inRange, e]

theorem setVecD_reach {s s' : DVec T} {i : Nat} {x : T} (h : Reach (.dvec s)) (e : s.setVec (i : Int) x = .ok s') : Reach (.dvec s') := by
  refine .call (.set i 0 x) h ?_
  have hi : i < s.l := by
    by_contra hc
    simp [DVec.setVec, inRange, hc] at e
  simp [Op.apply, Mat.set, DVec.set, hi, inRange, e]

theorem out_bind {α β : Type} {x : Out α} {f : α → Out β} {b : β} (h : (x >>= f) = .ok b) : ∃ a, x = .ok a ∧ f a = .ok b := by
  cases x with
  | ok a => exact ⟨a, rfl, h⟩
  | panic => cases h
  | hang => cases h

theorem loop_inv {σ : Type} {P : σ → Prop} {f : Nat → σ → Out σ} (hf : ∀ i s s', P s → f i s = .ok s' → P s') :
    ∀ (n i0 : Nat) {s s' : σ}, P s → loop n i0 f s = .ok s' → P s'
  | 0, _, _, _, h, e => by cases e; exact h
  | n + 1, i0, s, s', h, e => by
    have e : (f i0 s >>= fun s1 => loop n (i0 + 1) f s1) = .ok s' := e
    obtain ⟨s1, e1, e2⟩ := out_bind e
    exact loop_inv hf n (i0 + 1) (hf _ _ _ h e1) e2

/-- A row is a reachable vector. -/
theorem rowsAt_reach {v : Mat T} {r : Int} {w : Vec T} (hv : Reach v) (h : v.rowsAt r = .ok w) : Reach w.toMat := by
  cases v with
  | csr s =>
    obtain ⟨u, g, e⟩ := out_bind (show (s.rowsAt r >>= fun v => .ok (.svec v)) = .ok w from h); cases e; clear h
    unfold CSR.rowsAt at g
    split at g
    · obtain ⟨a, -, g⟩ := out_bind g
      obtain ⟨b, -, g⟩ := out_bind g
      refine loop_inv (P := fun s => Reach (.svec s)) ?_ _ _ (.newSVec _) g
      intro i s1 s2 h1 e
      obtain ⟨c, -, e⟩ := out_bind e
      obtain ⟨x, -, e⟩ := out_bind e
      exact setVecS_reach h1 e
    · cases g
  | csc s =>
    obtain ⟨u, g, e⟩ := out_bind (show (s.rowsAt r >>= fun v => .ok (.svec v)) = .ok w from h); cases e; clear h
    unfold CSC.rowsAt at g
    split at g
    · refine loop_inv (P := fun s => Reach (.svec s)) ?_ _ _ (.newSVec _) g
      intro i s1 s2 h1 e
      obtain ⟨⟨a, b⟩, -, e⟩ := out_bind e
      obtain ⟨c, -, e⟩ := out_bind e
      cases c
      · cases e; exact h1
      · simp only [if_true] at e
        obtain ⟨x, -, e⟩ := out_bind e
        exact setVecS_reach h1 e
    · cases g
  | dense s =>
    obtain ⟨u, g, e⟩ := out_bind (show (s.rowsAt r >>= fun v => .ok (.dvec v)) = .ok w from h); cases e; clear h
    unfold Dense.rowsAt at g
    split at g
    · refine loop_inv (P := fun s => Reach (.dvec s)) ?_ _ _ (.newDVec _) g
      intro i s1 s2 h1 e
      obtain ⟨c, -, e⟩ := out_bind e
      obtain ⟨x, -, e⟩ := out_bind e
      exact setVecD_reach h1 e
    · cases g
  | dvec s =>
    obtain ⟨u, g, e⟩ := out_bind (show (s.rowsAt r >>= fun v => .ok (.dvec v)) = .ok w from h); cases e; clear h
    unfold DVec.rowsAt at g
    split at g
    · obtain ⟨x, -, g⟩ := out_bind g
      exact setVecD_reach (.newDVec 1) g
    · cases g
  | svec s =>
    obtain ⟨u, g, e⟩ := out_bind (show (s.rowsAt r >>= fun v => .ok (.svec v)) = .ok w from h); cases e; clear h
    unfold SVec.rowsAt at g
    split at g
    · obtain ⟨x, -, g⟩ := out_bind g
      exact setVecS_reach (.newSVec 1) g
    · cases g

/-- A column is a reachable vector. -/
theorem columnsAt_reach {v : Mat T} {c : Int} {w : Vec T} (hv : Reach v) (h : v.columnsAt c = .ok w) : Reach w.toMat := by
  cases v with
  | csr s =>
    obtain ⟨u, g, e⟩ := out_bind (show (s.columnsAt c >>= fun v => .ok (.svec v)) = .ok w from h); cases e; clear h
    unfold CSR.columnsAt at g
    split at g
    · refine loop_inv (P := fun s => Reach (.svec s)) ?_ _ _ (.newSVec _) g
      intro i s1 s2 h1 e
      obtain ⟨⟨a, b⟩, -, e⟩ := out_bind e
      obtain ⟨c, -, e⟩ := out_bind e
      cases c
      · cases e; exact h1
      · simp only [if_true] at e
        obtain ⟨x, -, e⟩ := out_bind e
        exact setVecS_reach h1 e
    · cases g
  | csc s =>
    obtain ⟨u, g, e⟩ := out_bind (show (s.columnsAt c >>= fun v => .ok (.svec v)) = .ok w from h); cases e; clear h
    unfold CSC.columnsAt at g
    split at g
    · obtain ⟨a, -, g⟩ := out_bind g
      obtain ⟨b, -, g⟩ := out_bind g
      refine loop_inv (P := fun s => Reach (.svec s)) ?_ _ _ (.newSVec _) g
      intro i s1 s2 h1 e
      obtain ⟨c, -, e⟩ := out_bind e
      obtain ⟨x, -, e⟩ := out_bind e
      exact setVecS_reach h1 e
    · cases g
  | dense s =>
    obtain ⟨u, g, e⟩ := out_bind (show (s.columnsAt c >>= fun v => .ok (.dvec v)) = .ok w from h); cases e; clear h
    unfold Dense.columnsAt at g
    split at g
    · refine loop_inv (P := fun s => Reach (.dvec s)) ?_ _ _ (.newDVec _) g
      intro i s1 s2 h1 e
      obtain ⟨c, -, e⟩ := out_bind e
      obtain ⟨x, -, e⟩ := out_bind e
      exact setVecD_reach h1 e
    · cases g
  | dvec s =>
    obtain ⟨u, g, e⟩ := out_bind (show (s.columnsAt c >>= fun v => .ok (.dvec v)) = .ok w from h); cases e; clear h
    unfold DVec.columnsAt at g
    split at g
    · exact .copy (m := .dvec s) hv (show (s.copy >>= fun v => .ok (Mat.dvec v)) = _ by rw [g]; rfl)
    · cases g
  | svec s =>
    obtain ⟨u, g, e⟩ := out_bind (show (s.columnsAt c >>= fun v => .ok (.svec v)) = .ok w from h); cases e; clear h
    unfold SVec.columnsAt at g
    split at g
    · exact .copy (m := .svec s) hv (show (s.copy >>= fun v => .ok (Mat.svec v)) = _ by rw [g]; rfl)
    · cases g

theorem runHigh_reach [GoStore T] : ∀ (as : List (Act T)) (vs : List (Mat T)) {vs' : List (Mat T)}, Plain as → runHigh vs as = .ok vs' →
    (∀ v ∈ vs, Reach v) → ∀ v ∈ vs', Reach v
  | [], vs, vs', _, h, hr => by cases h; exact hr
  | a :: as, vs, vs', hp, h, hr => by
    have hp' : Plain as := fun k f hm => hp k f (by simp [hm])
    have grow : ∀ x, Reach x → (runHigh (vs ++ [x]) as = .ok vs') → ∀ v ∈ vs', Reach v :=
      fun x hx h => runHigh_reach as _ hp' h (by
        intro v hv
        rcases List.mem_append.1 hv with h | h
        · exact hr v h
        · rw [List.mem_singleton.1 h]; exact hx)
    cases a with
    | newCSR r c => exact grow _ (.newCSR r c) h
    | newCSC r c => exact grow _ (.newCSC r c) h
    | newDense r c => exact grow _ (.newDense r c) h
    | newDVec l => exact grow _ (.newDVec l) h
    | newSVec l => exact grow _ (.newSVec l) h
    | poke a i x => exact runHigh_reach as _ hp' h hr
    | copy j =>
      obtain ⟨v1, v2, h1, h2, h⟩ := grow_ok (u := id) h
      exact grow _ (.copy (hr v1 (List.mem_of_getElem? h1)) h2) h
    | rowsAt j i =>
      obtain ⟨v1, v2, h1, h2, h⟩ := grow_ok (u := Vec.toMat) h
      exact grow _ (rowsAt_reach (hr v1 (List.mem_of_getElem? h1)) h2) h
    | columnsAt j i =>
      obtain ⟨v1, v2, h1, h2, h⟩ := grow_ok (u := Vec.toMat) h
      exact grow _ (columnsAt_reach (hr v1 (List.mem_of_getElem? h1)) h2) h
    | rowArray j i =>
      obtain ⟨v1, v2, -, -, h⟩ := grow_ok (u := fun l => .dvec (DVec.fromArray l)) h
      exact grow _ (.arrDVec v2) h
    | call j f =>
      obtain ⟨op, rfl⟩ := hp j f (by simp)
      have h' : ((do let v ← idx vs j; let v' ← op.apply v; Out.ok (vs.set j v')) >>= fun w => runHigh w as) = .ok vs' := h
      by_cases hj : j < vs.length
      · rw [idx_ok hj] at h'
        have hx := hr vs[j] (List.getElem_mem hj)
        cases e2 : op.apply vs[j] with
        | ok w =>
          simp only [Out.ok_bind, e2] at h'
          refine runHigh_reach as _ hp' h' fun v hv => ?_
          rcases List.mem_or_eq_of_mem_set hv with hm | rfl
          · exact hr v hm
          · exact .call op hx e2
        | panic => simp [e2] at h'
        | hang => simp [e2] at h'
      · have e1 : idx vs j = .panic := by simp [idx, List.getElem?_eq_none (not_lt.1 hj)]
        simp [e1] at h'

theorem bind_okE {α β : Type} {x : H T α} {f : α → H T β} {m m' : Mem T} {b : β} (h : (x >>= f) m = .ok b m') :
    ∃ a m1, x m = .ok a m1 ∧ f a m1 = .ok b m' := by
  have h : H.bind x f m = .ok b m' := h
  unfold H.bind at h
  rcases e : x m with ⟨a, m1⟩ | m1 | m1 <;> rw [e] at h
  · exact ⟨a, m1, rfl, h⟩
  · cases h
  · cases h

theorem LDense.fromArray_eq {m m1 : Mem T} {data : Slice} {o : LDense} (e : LDense.fromArray data m = .ok o m1) :
    o.data = data ∧ o.r = data.len := by
  obtain ⟨row0, m2, -, e⟩ := bind_okE e
  obtain ⟨s, m3, e2, e⟩ := bind_okE e
  obtain ⟨a, m4, -, e2⟩ := bind_okE e2
  obtain ⟨b, m5, -, e2⟩ := bind_okE e2
  cases e; cases e2
  exact ⟨rfl, rfl⟩

theorem LDVec.fromArray_eq {m m1 : Mem T} {data : Slice} {o : LDVec} (e : LDVec.fromArray data m = .ok o m1) :
    o.values = data ∧ o.l = data.len := by
  obtain ⟨s, m3, e2, e⟩ := bind_okE e
  obtain ⟨a, m4, -, e2⟩ := bind_okE e2
  cases e; cases e2
  exact ⟨rfl, rfl⟩

end GB.Share
