import Verif.Lemmas.Share5
import Verif.Lemmas.Safe
import Verif.Lemmas.Reduced
import Verif.SpecRecover

/-!
# A method that panics has not begun to write

For an object in any reachable state, a method either succeeds on the value, or stops at its index
check with the memory as it was.
-/

namespace GB.Share

set_option linter.unusedSectionVars false

variable {T : Type} [GoNum T] [GoStore T]

section
variable {m : Mem T} {F : Tag → Nat → Prop} {o : LMat} {v : Mat T}

theorem bind_panic {α β : Type} {x : H T α} (f : α → H T β) (h : x m = .panic m) : (x >>= f) m = .panic m := by
  show H.bind x f m = _
  simp [H.bind, h]

theorem int_valid {i j : Int} {r c : Nat} (h : inRange i r = true ∧ inRange j c = true) :
    ∃ a b : Nat, i = a ∧ j = b ∧ a < r ∧ b < c := by
  obtain ⟨h1, h2⟩ := h
  rw [inRange_iff] at h1 h2
  exact ⟨i.toNat, j.toNat, by omega, by omega, by omega, by omega⟩

theorem bad_index {i j : Int} {r c : Nat} (h : ¬ (inRange i r = true ∧ inRange j c = true)) {α : Type} (x : H T α) :
    (if inRange i r then (if inRange j c then x else lift .panic) else lift .panic) = (lift .panic : H T α) := by
  by_cases h1 : inRange i r = true
  · rw [if_pos h1, if_neg fun h2 => h ⟨h1, h2⟩]
  · rw [if_neg h1]

/-- Where the object's dimensions are. -/
theorem own_dims (h : o.Own m F v) :
    match o with
    | .csr o => v.rows = o.r ∧ v.cols = o.c
    | .csc o => v.rows = o.r ∧ v.cols = o.c
    | .dense o => v.rows = o.r ∧ v.cols = o.c
    | .dvec o => v.rows = o.l ∧ v.cols = 1
    | .svec o => v.rows = o.l ∧ v.cols = 1 := by
  have e := h.view
  cases o <;> (subst e; exact ⟨rfl, rfl⟩)

theorem set_bad (h : o.Own m F v) {i j : Int} (hn : ¬ (inRange i v.rows = true ∧ inRange j v.cols = true)) (x : T) :
    o.set i j x m = .panic m := by
  have hd := own_dims h
  cases o <;> (obtain ⟨h1, h2⟩ := hd; rw [h1, h2] at hn)
  · exact bind_panic _ (by unfold LCSR.updateWith; rw [bad_index hn]; rfl)
  · exact bind_panic _ (by unfold LCSC.updateWith; rw [bad_index hn]; rfl)
  · exact bind_panic _ (by unfold LDense.set; rw [bad_index hn]; rfl)
  · exact bind_panic _ (by unfold LDVec.set; rw [bad_index hn]; rfl)
  · exact bind_panic _ (by unfold LSVec.set; rw [bad_index hn]; rfl)

theorem update_bad (h : o.Own m F v) {i j : Int} (hn : ¬ (inRange i v.rows = true ∧ inRange j v.cols = true)) (f : T → T) :
    o.update i j f m = .panic m := by
  have hd := own_dims h
  cases o <;> (obtain ⟨h1, h2⟩ := hd; rw [h1, h2] at hn)
  · exact bind_panic _ (by unfold LCSR.updateWith; rw [bad_index hn]; rfl)
  · exact bind_panic _ (by unfold LCSC.updateWith; rw [bad_index hn]; rfl)
  · exact bind_panic _ (by unfold LDense.updateWith; rw [bad_index hn]; rfl)
  · exact bind_panic _ (by unfold LDVec.updateWith; rw [bad_index hn]; rfl)
  · exact bind_panic _ (by unfold LSVec.updateWith; rw [bad_index hn]; rfl)

/-- `Set` with any indices. -/
theorem set_safe (hI : v.Inv) (h : o.Own m F v) (i j : Int) (x : T) :
    (∃ v', v.set i j x = .ok v') ∨ o.set i j x m = .panic m := by
  by_cases hv : inRange i v.rows = true ∧ inRange j v.cols = true
  · obtain ⟨a, b, rfl, rfl, ha, hb⟩ := int_valid hv
    obtain ⟨v', e, -⟩ := hI.apply_ok (o := .set a b x) ⟨ha, hb⟩
    exact .inl ⟨v', e⟩
  · exact .inr (set_bad h hv x)

/-- `Update` with any indices. -/
theorem update_safe (hI : v.Inv) (h : o.Own m F v) (i j : Int) (f : T → T) :
    (∃ v', v.update i j f = .ok v') ∨ o.update i j f m = .panic m := by
  by_cases hv : inRange i v.rows = true ∧ inRange j v.cols = true
  · obtain ⟨a, b, rfl, rfl, ha, hb⟩ := int_valid hv
    obtain ⟨v', e, -⟩ := hI.apply_ok (o := .update a b f) ⟨ha, hb⟩
    exact .inl ⟨v', e⟩
  · exact .inr (update_bad h hv f)

theorem out_bind_ok {α β : Type} {x : Out α} {f : α → Out β} (h : ∃ a, x = .ok a) (hf : ∀ a, ∃ b, f a = .ok b) :
    ∃ b, (x >>= f) = .ok b := by
  obtain ⟨a, rfl⟩ := h
  obtain ⟨b, e⟩ := hf a
  exact ⟨b, by rw [Out.ok_bind, e]⟩

/-- `At` with any indices. -/
theorem at_safe (hI : v.Inv) (h : o.Own m F v) (i j : Int) :
    (∃ p, v.at' i j = .ok p) ∨ (o.at' i j : H T (T × LMat)) m = .panic m := by
  have hd := own_dims h
  by_cases hv : inRange i v.rows = true ∧ inRange j v.cols = true
  · obtain ⟨a, b, rfl, rfl, ha, hb⟩ := int_valid hv
    exact .inl ⟨_, hI.at_ok ha hb⟩
  · have hv' := hv
    cases h with
    | csr h => obtain ⟨h1, h2⟩ := hd; rw [h1, h2] at hv; right; exact bind_panic _ (by unfold LCSR.updateWith; rw [bad_index hv]; rfl)
    | csc h => obtain ⟨h1, h2⟩ := hd; rw [h1, h2] at hv; right; exact bind_panic _ (by unfold LCSC.updateWith; rw [bad_index hv]; rfl)
    | dense h => obtain ⟨h1, h2⟩ := hd; rw [h1, h2] at hv; right; exact bind_panic _ (by unfold LDense.at'; rw [bad_index hv]; rfl)
    | svec h => obtain ⟨h1, h2⟩ := hd; rw [h1, h2] at hv; right; exact bind_panic _ (by unfold LSVec.updateWith; rw [bad_index hv]; rfl)
    | dvec h =>
      rename_i o s
      obtain ⟨h1, h2⟩ := hd
      by_cases hi : inRange i s.l = true
      · left
        rw [inRange_iff] at hi
        have hl : i.toNat < s.values.length := by
          have hI : s.values.length = s.l := hI
          omega
        exact ⟨_, by simp [Mat.at', DVec.at', DVec.atVec, inRange_iff.2 hi, idx_ok hl]; rfl⟩
      · right
        rw [show s.l = o.l from h1] at hi
        exact bind_panic _ (by unfold LDVec.atVec; rw [if_neg hi]; rfl)

/-- `Element` with any indices. -/
theorem element_safe (hI : v.Inv) (h : o.Own m F v) (i j : Int) :
    (∃ p, v.element i j = .ok p) ∨ (o.element i j : H T (Bool × LMat)) m = .panic m := by
  have hd := own_dims h
  by_cases hv : inRange i v.rows = true ∧ inRange j v.cols = true
  · obtain ⟨a, b, rfl, rfl, ha, hb⟩ := int_valid hv
    exact .inl ⟨_, hI.element_ok ha hb⟩
  · cases h with
    | csr h => obtain ⟨h1, h2⟩ := hd; rw [h1, h2] at hv; right; exact bind_panic _ (by unfold LCSR.updateWith; rw [bad_index hv]; rfl)
    | csc h => obtain ⟨h1, h2⟩ := hd; rw [h1, h2] at hv; right; exact bind_panic _ (by unfold LCSC.updateWith; rw [bad_index hv]; rfl)
    | dense h =>
      obtain ⟨h1, h2⟩ := hd; rw [h1, h2] at hv; right; exact bind_panic _ (bind_panic _ (by unfold LDense.at'; rw [bad_index hv]; rfl))
    | svec h =>
      rename_i o s
      obtain ⟨h1, h2⟩ := hd
      by_cases hi : inRange i s.l = true
      · left
        obtain ⟨a, b, rfl, -, ha, -⟩ := int_valid (i := i) (j := 0) (c := 1) ⟨hi, rfl⟩
        obtain ⟨x, g1, -⟩ := SVec.Weak.at_self hI ha
        exact ⟨_, by simp [Mat.element, SVec.element, g1]; rfl⟩
      · right
        refine bind_panic _ (bind_panic _ ?_)
        unfold LSVec.atVec
        rw [bind_ok (LSVec.Own.view h), SVec.atVec, if_neg hi]
        rfl
    | dvec h =>
      rename_i o s
      obtain ⟨h1, h2⟩ := hd
      by_cases hi : inRange i s.l = true
      · left
        rw [inRange_iff] at hi
        have hl : i.toNat < s.values.length := by
          have hI : s.values.length = s.l := hI
          omega
        exact ⟨_, by simp [Mat.element, DVec.element, DVec.atVec, inRange_iff.2 hi, idx_ok hl]; rfl⟩
      · right
        rw [show s.l = o.l from h1] at hi
        exact bind_panic _ (bind_panic _ (by unfold LDVec.atVec; rw [if_neg hi]; rfl))

/-- `RowsAt` with any index. -/
theorem rowsAt_safe (hI : v.Inv) (h : o.Own m F v) (i : Int) :
    (∃ w, v.rowsAt i = .ok w) ∨ (o.rowsAt i : H T LMat) m = .panic m := by
  have hd := own_dims h
  by_cases hv : inRange i v.rows = true
  · obtain ⟨a, b, rfl, -, ha, -⟩ := int_valid (j := 0) (c := 1) ⟨hv, rfl⟩
    obtain ⟨w, e, -⟩ := hI.rowsAt_total ha
    exact .inl ⟨w, e⟩
  · right
    cases o <;> (obtain ⟨h1, -⟩ := hd; rw [h1] at hv)
    · exact bind_panic _ (by unfold LCSR.rowsAt; rw [if_neg hv]; rfl)
    · exact bind_panic _ (by unfold LCSC.rowsAt; rw [if_neg hv]; rfl)
    · exact bind_panic _ (by unfold LDense.rowsAt; rw [if_neg hv]; rfl)
    · exact bind_panic _ (by unfold LDVec.rowsAt; rw [if_neg hv]; rfl)
    · exact bind_panic _ (by unfold LSVec.rowsAt; rw [if_neg hv]; rfl)

/-- `ColumnsAt` with any index. -/
theorem columnsAt_safe (hI : v.Inv) (h : o.Own m F v) (j : Int) :
    (∃ w, v.columnsAt j = .ok w) ∨ (o.columnsAt j : H T LMat) m = .panic m := by
  have hd := own_dims h
  by_cases hv : inRange j v.cols = true
  · obtain ⟨a, b, rfl, -, ha, -⟩ := int_valid (j := 0) (c := 1) ⟨hv, rfl⟩
    obtain ⟨w, e, -⟩ := hI.columnsAt_total ha
    exact .inl ⟨w, e⟩
  · right
    cases o <;> (obtain ⟨-, h1⟩ := hd; rw [h1] at hv)
    · exact bind_panic _ (by unfold LCSR.columnsAt; rw [if_neg hv]; rfl)
    · exact bind_panic _ (by unfold LCSC.columnsAt; rw [if_neg hv]; rfl)
    · exact bind_panic _ (by unfold LDense.columnsAt; rw [if_neg hv]; rfl)
    · exact bind_panic _ (by unfold LDVec.columnsAt; rw [if_neg hv]; rfl)
    · exact bind_panic _ (by unfold LSVec.columnsAt; rw [if_neg hv]; rfl)

/-- `RowsAtToArray` with any index. -/
theorem rowArray_safe (hI : v.Inv) (h : o.Own m F v) (i : Int) :
    (∃ l, v.rowsAtToArray i = .ok l) ∨ (o.rowsAtToArray i : H T Slice) m = .panic m := by
  have hd := own_dims h
  by_cases hv : inRange i v.rows = true
  · obtain ⟨a, b, rfl, -, ha, -⟩ := int_valid (j := 0) (c := 1) ⟨hv, rfl⟩
    left
    by_cases hk : v.kind = .svec
    · cases v <;> simp [Mat.kind] at hk
      rename_i s
      have ha : a < s.l := ha
      obtain ⟨x, g1, -⟩ := SVec.Weak.at_self hI ha
      exact ⟨[x], by simp [Mat.rowsAtToArray, SVec.rowsAtToArray, ha, g1]⟩
    · exact ⟨_, GB.Reduced.rowsAtToArray_ok (hI.wf hk) hk ha⟩
  · right
    cases o <;> (obtain ⟨h1, -⟩ := hd; rw [h1] at hv)
    · show LCSR.rowsAtToArray _ i m = _; unfold LCSR.rowsAtToArray; rw [if_neg hv]; rfl
    · show LCSC.rowsAtToArray _ i m = _; unfold LCSC.rowsAtToArray; rw [if_neg hv]; rfl
    · show LDense.rowsAtToArray _ i m = _; unfold LDense.rowsAtToArray; rw [if_neg hv]; rfl
    · show LDVec.rowsAtToArray _ i m = _; unfold LDVec.rowsAtToArray; rw [if_neg hv]; rfl
    · show LSVec.rowsAtToArray _ i m = _; unfold LSVec.rowsAtToArray; rw [if_neg hv]; rfl

/-- Any call but the writing half of `Map`. -/
theorem call_safe (hI : v.Inv) (h : o.Own m F v) {f : Call T} (hf : ∀ it x, f ≠ .put it x) :
    (∃ v', f.high v = .ok v') ∨ f.low o m = .panic m := by
  cases f with
  | op p =>
    cases p with
    | set i j x => exact set_safe hI h i j x
    | update i j g => exact update_safe hI h i j g
    | clear => exact .inl ⟨_, rfl⟩
    | read i j =>
      rcases at_safe hI h i j with e | e
      · exact .inl (out_bind_ok e fun a => ⟨_, rfl⟩)
      · exact .inr (bind_panic _ e)
    | element i j =>
      rcases element_safe hI h i j with e | e
      · exact .inl (out_bind_ok e fun a => ⟨_, rfl⟩)
      · exact .inr (bind_panic _ e)
  | put it x => exact absurd rfl (hf it x)
  | reSize n =>
    cases h with
    | dvec h =>
      rename_i o s
      left
      have hI : s.values.length = s.l := hI
      have : ∃ p, s.reSize n = .ok p := by
        unfold DVec.reSize
        split
        · exact ⟨_, rfl⟩
        · split
          · rw [if_pos (by omega)]; exact ⟨_, rfl⟩
          · exact ⟨_, rfl⟩
      exact out_bind_ok this fun a => ⟨_, rfl⟩
    | csr h => exact .inr rfl
    | csc h => exact .inr rfl
    | dense h => exact .inr rfl
    | svec h => exact .inr rfl

end

theorem idx_bad {α : Type} {l : List α} {k : Nat} (hk : ¬ k < l.length) : idx l k = .panic := by
  simp [idx, List.getElem?_eq_none (not_lt.1 hk)]

/-- One action of a program. -/
theorem act_safe {m : Mem T} {N : Nat} {os : List LMat} {vs : List (Mat T)} (h : Pool m N os vs) (hr : ∀ v ∈ vs, Reach v)
    (a : Act T) (ha : Tame [a]) : (∃ vs', a.high vs = .ok vs') ∨ a.low os m = .panic m := by
  obtain ⟨Fs, -, -, h3⟩ := h.own
  have hlen := h.len
  have key : ∀ {α β : Type} (k : Nat) (x : LMat → H T α) (y : Mat T → Out β) (g : α → H T (List LMat))
      (e : β → Out (List (Mat T))), (∀ b, ∃ c, e b = .ok c) →
      (∀ F o v, Reach v → LMat.Own m F o v → (∃ b, y v = .ok b) ∨ x o m = .panic m) →
      (∃ c, (idx vs k >>= fun v => y v >>= e) = .ok c) ∨ (lift (idx os k) >>= fun o => x o >>= g) m = .panic m := by
    intro α β k x y g e he hx
    by_cases hk : k < os.length
    · have hk' : k < vs.length := by omega
      rw [idx_ok hk, idx_ok hk']
      rcases hx _ _ _ (hr _ (List.getElem_mem hk')) (h3 k os[k] vs[k] (by simp [hk]) (by simp [hk'])) with hb | hb
      · left
        rw [Out.ok_bind]
        exact out_bind_ok hb he
      · right
        exact (bind_ok (f := fun o => x o >>= g) (rfl : lift (.ok os[k]) m = .ok os[k] m)).trans (bind_panic g hb)
    · rw [idx_bad hk]
      exact .inr rfl
  cases a with
  | newCSR r c => exact .inl ⟨_, rfl⟩
  | newCSC r c => exact .inl ⟨_, rfl⟩
  | newDense r c => exact .inl ⟨_, rfl⟩
  | newDVec l => exact .inl ⟨_, rfl⟩
  | newSVec l => exact .inl ⟨_, rfl⟩
  | poke a i x => exact .inl ⟨_, rfl⟩
  | copy k => exact key k LMat.copy Mat.copy _ _ (fun b => ⟨_, rfl⟩) fun F o v hv ho => .inl ⟨v, copy_reach hv⟩
  | rowsAt k i => exact key k _ (fun v => v.rowsAt i) _ _ (fun b => ⟨_, rfl⟩) fun F o v hv ho => rowsAt_safe hv.inv ho i
  | columnsAt k j => exact key k _ (fun v => v.columnsAt j) _ _ (fun b => ⟨_, rfl⟩) fun F o v hv ho => columnsAt_safe hv.inv ho j
  | rowArray k i => exact key k _ (fun v => v.rowsAtToArray i) _ _ (fun b => ⟨_, rfl⟩) fun F o v hv ho => rowArray_safe hv.inv ho i
  | call k f =>
    exact key k _ (fun v => f.high v) _ _ (fun b => ⟨_, rfl⟩) fun F o v hv ho =>
      call_safe hv.inv ho fun it x e => ha k it x (by simp [e])

/-- Reachable objects stay reachable. -/
theorem act_reach {vs vs' : List (Mat T)} {a : Act T} (ha : Tame [a]) (hr : ∀ v ∈ vs, Reach v) (e : a.high vs = .ok vs') :
    ∀ v ∈ vs', Reach v := by
  by_cases hp : Plain [a]
  · exact runHigh_reach [a] vs hp (by simp [runHigh, e]) hr
  · cases a with
    | call k f =>
      cases f with
      | op p => exact absurd (fun k f hm => by simp at hm; exact ⟨p, hm.2⟩) hp
      | put it x => exact absurd (by simp) (ha k it x)
      | reSize n =>
        simp only [Act.high] at e
        obtain ⟨v, h1, h2⟩ := out_bind e
        obtain ⟨v', h3, h4⟩ := out_bind h2
        cases h4
        have hk : k < vs.length := by
          by_contra hk
          rw [idx_bad hk] at h1; cases h1
        rw [idx_ok hk] at h1
        cases h1
        intro u hu
        rcases List.mem_or_eq_of_mem_set hu with hm | rfl
        · exact hr u hm
        · cases ev : vs[k] with
          | dvec s =>
            rw [ev] at h3
            simp only [Call.high] at h3
            obtain ⟨⟨s', w⟩, h5, h6⟩ := out_bind h3
            cases h6
            have : s' = DVec.fromArray s'.values := by
              unfold DVec.reSize at h5
              split at h5
              · cases h5; rfl
              · split at h5
                · dsimp only at h5
                  split at h5
                  · cases h5; rfl
                  · cases h5
                · cases h5; rfl
            rw [this]
            exact .arrDVec _
          | csr s => rw [ev] at h3; cases h3
          | csc s => rw [ev] at h3; cases h3
          | dense s => rw [ev] at h3; cases h3
          | svec s => rw [ev] at h3; cases h3
    | _ => exact absurd (fun k f hm => by simp at hm) hp

/-- A program that goes on after every panic. -/
theorem try_sim {N : Nat} : ∀ (as : List (Act T)) {m : Mem T} {os : List LMat} {vs : List (Mat T)}, Pool m N os vs →
    (∀ v ∈ vs, Reach v) → Below N as → Tame as →
    ∃ os' m' vs', tryLow os as m = .ok os' m' ∧ tryHigh vs as = .ok vs' ∧ Pool m' N os' vs' ∧ Poked N m m' as ∧
      ∀ v ∈ vs', Reach v
  | [], m, os, vs, h, hr, _, _ => ⟨os, m, vs, rfl, rfl, h, fun _ _ => ⟨rfl, rfl, rfl⟩, hr⟩
  | a :: as, m, os, vs, h, hr, hb, ht => by
    have hb1 : Below N [a] := fun b i x hm => hb b i x (by simp at hm; simp [hm])
    have ht1 : Tame [a] := fun k it x hm => ht k it x (by simp at hm; simp [hm])
    have hb2 : Below N as := fun b i x hm => hb b i x (List.mem_cons_of_mem _ hm)
    have ht2 : Tame as := fun k it x hm => ht k it x (List.mem_cons_of_mem _ hm)
    have hs := act_sim h a hb1
    rcases act_safe h hr a ht1 with ⟨vs1, e⟩ | e
    · have hs' := hs
      rw [e] at hs'
      obtain ⟨os1, m1, e1, ⟨hp, hk⟩, -⟩ := sim_ok' hs'
      obtain ⟨os', m', vs', r1, r2, r3, r4, r5⟩ := try_sim as hp (act_reach ht1 hr e) hb2 ht2
      refine ⟨os', m', vs', by simp [tryLow, e1, r1], by simp [tryHigh, e, r2], r3, fun n hn => ?_, r5⟩
      obtain ⟨a1, a2, a3⟩ := hk n hn
      obtain ⟨b1, b2, b3⟩ := r4 n hn
      exact ⟨by rw [b1, a1, ← poked_cons], b2.trans a2, b3.trans a3⟩
    · have eh : a.high vs = .panic := by
        unfold Sim at hs
        rw [e] at hs
        rcases eh : a.high vs with b | _ | _ <;> rw [eh] at hs <;> first | rfl | exact hs.elim
      obtain ⟨os', m', vs', r1, r2, r3, r4, r5⟩ := try_sim as h hr hb2 ht2
      refine ⟨os', m', vs', by simp [tryLow, e, r1], by simp [tryHigh, eh, r2], r3, fun n hn => ?_, r5⟩
      obtain ⟨b1, b2, b3⟩ := r4 n hn
      refine ⟨?_, b2, b3⟩
      rw [b1, poked_cons]
      cases a with
      | poke b i x => simp [Act.low] at e
      | _ => rfl

end GB.Share
