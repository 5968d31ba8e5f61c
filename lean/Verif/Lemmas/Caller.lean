import Verif.Model.Caller
import Verif.SpecCaller
import Verif.Lemmas.ReplayOps

/-!
# `Apply` with an arbitrary function of the caller
-/

namespace GB

set_option linter.unusedSectionVars false
set_option linter.unusedSimpArgs false

open M

variable {T : Type} [GoNum T]

theorem patch_cons (t : Nat → Nat → T) (e : Nat × Nat × T) (l : List (Nat × Nat × T)) :
    patch t (e :: l) = patch (fun i j => if i = e.1 ∧ j = e.2.1 then e.2.2 else t i j) l := rfl

theorem patch_congr {i j : Nat} : ∀ {l : List (Nat × Nat × T)} {t t' : Nat → Nat → T}, t i j = t' i j →
    patch t l i j = patch t' l i j
  | [], _, _, h => h
  | e :: l, t, t', h => by
    rw [patch_cons, patch_cons]
    refine patch_congr ?_
    show (if i = e.1 ∧ j = e.2.1 then e.2.2 else t i j) = if i = e.1 ∧ j = e.2.1 then e.2.2 else t' i j
    rw [h]

namespace Ops

/-- With a function in the sense of mathematics the loops are those of `Ops.apply`. -/
theorem mapBy_plain (p : Ref) (mask : Mask) (f : T → T) : ∀ (g : Nat) (it : Mat.Iter) (past : List T) (w : World T),
    mapBy p mask (fun _ v => some (f v)) g it past w =
      (loopMap p true (fun r c value => do
        let e ← mask.element r c
        if e then pure (f value) else pure value) g it >>= fun _ => pure ()) w
  | 0, it, past, w => by
    unfold mapBy loopMap
    cases it.hasNext <;> rfl
  | g + 1, it, past, w => by
    unfold mapBy loopMap
    cases hn : it.hasNext with
    | false => rfl
    | true =>
      simp only [if_true, bind_apply]
      cases hp : (M.poll : M T Bool) w with
      | ok stop w1 =>
        cases stop with
        | true => rfl
        | false =>
          simp only [Bool.false_eq_true, if_false, bind_apply]
          cases ofObj p (fun m => m.step it) w1 with
          | ok x w2 =>
            obtain ⟨it', r, c, v⟩ := x
            simp only [bind_apply]
            cases mask.element r c w2 with
            | ok e w3 =>
              cases e with
              | true =>
                simp only [if_true, bind_apply, pure_apply]
                cases withObj p (fun m => do let m' ← m.put it' (f v); .ok ((), m')) w3 with
                | ok _ w4 => simp only []; rw [mapBy_plain p mask f g it' _ w4]; rfl
                | panic _ => rfl
                | hang _ => rfl
              | false =>
                simp only [Bool.false_eq_true, if_false, bind_apply, pure_apply]
                cases withObj p (fun m => do let m' ← m.put it' v; .ok ((), m')) w3 with
                | ok _ w4 => simp only []; rw [mapBy_plain p mask f g it' _ w4]; rfl
                | panic _ => rfl
                | hang _ => rfl
            | panic _ => rfl
            | hang _ => rfl
          | panic _ => rfl
          | hang _ => rfl
      | panic _ => rfl
      | hang _ => rfl

theorem eachBy_plain (p : Ref) (mask : Mask) (f : T → T) (out : Ref) :
    ∀ (g : Nat) (it : Mat.Iter) (past : List T) (w : World T),
    eachBy p mask (fun _ v => some (f v)) out g it past w =
      (loopIter p (some ()) (fun r c value => do
        let e ← mask.element r c
        if !e then M.set out c r (f value)
        pure none) g it >>= fun _ => pure ()) w
  | 0, it, past, w => by
    unfold eachBy loopIter
    cases it.hasNext <;> rfl
  | g + 1, it, past, w => by
    unfold eachBy loopIter
    cases hn : it.hasNext with
    | false => rfl
    | true =>
      simp only [if_true, bind_apply]
      cases hp : (M.poll : M T Bool) w with
      | ok stop w1 =>
        cases stop with
        | true => rfl
        | false =>
          simp only [Bool.false_eq_true, if_false, bind_apply]
          cases ofObj p (fun m => m.step it) w1 with
          | ok x w2 =>
            obtain ⟨it', r, c, v⟩ := x
            simp only [bind_apply]
            cases mask.element r c w2 with
            | ok e w3 =>
              cases e with
              | true =>
                simp only [Bool.not_true, Bool.false_eq_true, if_false, bind_apply, pure_apply]
                rw [eachBy_plain p mask f out g it' _ w3]; rfl
              | false =>
                simp only [Bool.not_false, if_true, bind_apply, pure_apply]
                cases M.set out c r (f v) w3 with
                | ok _ w4 => simp only []; rw [eachBy_plain p mask f out g it' _ w4]; rfl
                | panic _ => rfl
                | hang _ => rfl
            | panic _ => rfl
            | hang _ => rfl
          | panic _ => rfl
          | hang _ => rfl
      | panic _ => rfl
      | hang _ => rfl

variable [GoStore T]

/-- Into another object. -/
theorem eachBy_run {w : World T} {s out : Ref} {mask : Mask} {u : List T → T → Option T} (hso : s ≠ out)
    (hS : mask.Sound w) (hmo : mask ≠ .ref out) :
    ∀ (es : List (Nat × Nat × T)) (g : Nat) (it : Mat.Iter) (past : List T) (m : Mat T) (c : Option Nat),
      Yields Mat.Iter.hasNext (w.heap s).step it es → es.length ≤ g → m.Inv → Mat.Same m (w.heap out) →
      (∀ e ∈ es, mask.Covers w e.1 e.2.1 ∧ e.2.1 < (w.heap out).rows ∧ e.1 < (w.heap out).cols) →
      ∃ m' c', m.run ((answers u past ((seen c es).filter fun e => !mask.bit w e.1 e.2.1)).1.map
          fun e => .set e.2.1 e.1 e.2.2) = .ok m' ∧ m'.Inv ∧ Mat.Same m' (w.heap out) ∧
        eachBy s (mask.resolve w out) u out g it past (w.upd out m c) =
          finish (answers u past ((seen c es).filter fun e => !mask.bit w e.1 e.2.1)).2 (w.upd out m' c')
  | [], g, it, past, m, c, hY, _, hm, hSm, _ => by
    have hY : it.hasNext = false := hY
    have hs : seen c ([] : List (Nat × Nat × T)) = [] := by cases c <;> simp [seen]
    refine ⟨m, c, by rw [hs]; rfl, hm, hSm, ?_⟩
    rw [hs]
    cases g <;> (unfold eachBy; simp [hY, finish, answers])
  | e :: es, 0, it, past, m, c, hY, hg, hm, hSm, hE => by simp at hg
  | e :: es, g + 1, it, past, m, c, hY, hg, hm, hSm, hE => by
    obtain ⟨h1, it', h2, h3⟩ := hY
    have hg : es.length ≤ g := by simpa using hg
    have hE' : ∀ e ∈ es, mask.Covers w e.1 e.2.1 ∧ e.2.1 < (w.heap out).rows ∧ e.1 < (w.heap out).cols :=
      fun e he => hE e (by simp [he])
    obtain ⟨hc1, hc2, hc3⟩ := hE e (by simp)
    by_cases hc : c = some 0
    · subst hc
      refine ⟨m, some 0, rfl, hm, hSm, ?_⟩
      unfold eachBy
      rw [if_pos h1]; rfl
    obtain ⟨c1, hp, hseen⟩ : ∃ c1, (M.poll : M T Bool) (w.upd out m c) = .ok false (w.upd out m c1) ∧
        seen c (e :: es) = e :: seen c1 es := by
      rcases c with _ | _ | k
      · exact ⟨none, rfl, rfl⟩
      · exact absurd rfl hc
      · exact ⟨some k, rfl, rfl⟩
    have hst : ((w.upd out m c1).heap s).step it = .ok (it', e) := by rw [World.upd_ne _ _ _ hso]; exact h2
    have hel := Mask.element_apart hS hmo hc1 m c1
    have hrun : eachBy s (mask.resolve w out) u out (g + 1) it past (w.upd out m c) =
        (if !mask.bit w e.1 e.2.1 then
          match u past e.2.2 with
          | none => fail
          | some v' => do
            M.set out e.2.1 e.1 v'
            eachBy s (mask.resolve w out) u out g it' (past ++ [e.2.2])
        else eachBy s (mask.resolve w out) u out g it' past : M T Unit) (w.upd out m c1) := by
      conv => lhs; unfold eachBy
      rw [if_pos h1, bind_ok hp]
      simp only [Bool.false_eq_true, if_false]
      rw [bind_ok (ofObj_ok hst)]
      show ((mask.resolve w out).element e.1 e.2.1 >>= _) _ = _
      rw [bind_ok hel]
      rfl
    rw [hrun, hseen]
    cases hb : mask.bit w e.1 e.2.1 with
    | true =>
      have ih := eachBy_run hso hS hmo es g it' past m c1 h3 hg hm hSm hE' (u := u)
      rw [List.filter_cons, hb]
      exact ih
    | false =>
      rw [List.filter_cons, hb]
      simp only [Bool.not_false, if_true]
      cases hu : u past e.2.2 with
      | none =>
        refine ⟨m, c1, ?_, hm, hSm, ?_⟩
        · simp [answers, hu, Mat.run]
        · simp only [answers, hu]; rfl
      | some x =>
        obtain ⟨m1, e1, e2, e3⟩ := hm.apply_ok (o := .set e.2.1 e.1 x) (by rw [hSm.2.1, hSm.2.2]; exact ⟨hc2, hc3⟩)
        obtain ⟨m', c', f1, f2, f3, f4⟩ := eachBy_run hso hS hmo es g it' (past ++ [e.2.2]) m1 c1 h3 hg e2
          (e3.trans hSm) hE' (u := u)
        refine ⟨m', c', ?_, f2, f3, ?_⟩
        · simp only [answers, hu, List.map_cons, Mat.run, e1, Out.ok_bind]
          exact f1
        · have e1' : m.set e.2.1 e.1 x = .ok m1 := e1
          have : M.set out e.2.1 e.1 x (w.upd out m c1) = .ok () (w.upd out m1 c1) := by
            unfold M.set
            rw [withObj_ok (a := ()) (m := m1) (by rw [World.upd_out, e1']; rfl), World.upd_heap]
          simp only [answers, hu]
          rw [bind_ok this]
          exact f4

/-- In place. -/
theorem mapBy_run {w : World T} {p : Ref} {mask : Mask} {u : List T → T → Option T}
    (hS : mask.Sound w)
    (hF : mask.Fits w p) :
    ∀ (es : List (Nat × Nat × T)) (g : Nat) (it : Mat.Iter) (past : List T) (m : Mat T) (c : Option Nat),
      Mat.MapAt m it es → es.length ≤ g → Mat.Same m (w.heap p) →
      (∀ e ∈ es, (w.heap p).val e.1 e.2.1 = e.2.2 ∧ ((w.heap p).kind.sparse = true → isZero e.2.2 = false)) →
      (∀ a ∈ (answers u past ((seen c es).filter fun e => mask.bit w e.1 e.2.1)).1, Mat.Storable (w.heap p).kind a.2.2) →
      ∃ m' c', m'.WF ∧ Mat.Same m' (w.heap p) ∧
        (∀ i j, i < m.rows → j < m.cols → m'.val i j =
          patch m.val (answers u past ((seen c es).filter fun e => mask.bit w e.1 e.2.1)).1 i j) ∧
        mapBy p (mask.resolve w p) u g it past (w.upd p m c) =
          finish (answers u past ((seen c es).filter fun e => mask.bit w e.1 e.2.1)).2 (w.upd p m' c')
  | [], g, it, past, m, c, hY, _, hSm, _, _ => by
    have hs : seen c ([] : List (Nat × Nat × T)) = [] := by cases c <;> simp [seen]
    refine ⟨m, c, hY.wf, hSm, by rw [hs]; intros; rfl, ?_⟩
    rw [hs]
    cases g <;> (unfold mapBy; simp [hY.nil, finish, answers])
  | e :: es, 0, it, past, m, c, hY, hg, hSm, hE, hst => by simp at hg
  | e :: es, g + 1, it, past, m, c, hY, hg, hSm, hE, hst => by
    obtain ⟨h1, it', h2, h3, hr, hcl, hv, hput⟩ := hY.cons
    have hg : es.length ≤ g := by simpa using hg
    have hE' := fun e' (he : e' ∈ es) => hE e' (by simp [he])
    obtain ⟨hval, hnz⟩ := hE e (by simp)
    by_cases hc : c = some 0
    · subst hc
      refine ⟨m, some 0, hY.wf, hSm, fun _ _ _ _ => rfl, ?_⟩
      unfold mapBy
      rw [if_pos h1]; rfl
    obtain ⟨c1, hp, hseen⟩ : ∃ c1, (M.poll : M T Bool) (w.upd p m c) = .ok false (w.upd p m c1) ∧
        seen c (e :: es) = e :: seen c1 es := by
      rcases c with _ | _ | k
      · exact ⟨none, rfl, rfl⟩
      · exact absurd rfl hc
      · exact ⟨some k, rfl, rfl⟩
    have hst' : ((w.upd p m c1).heap p).step it = .ok (it', e) := by rw [World.upd_out]; exact h2
    have hel : (mask.resolve w p).element e.1 e.2.1 (w.upd p m c1) = .ok (mask.bit w e.1 e.2.1) (w.upd p m c1) := by
      by_cases hmo : mask = .ref p
      · subst hmo
        have he := Mat.element_ok hY.wf hr hcl
        simp only [Mask.resolve, Mask.element]
        rw [withObj_same (a := GoNum.glt 0 (m.val e.1 e.2.1)) (by rw [World.upd_out]; exact he)]
        simp only [Mask.bit, hval, hv]
      · exact Mask.element_apart hS hmo (hF.in (by rw [← hSm.2.1]; exact hr) (by rw [← hSm.2.2]; exact hcl)) m c1
    have hrun : mapBy p (mask.resolve w p) u (g + 1) it past (w.upd p m c) =
        (if mask.bit w e.1 e.2.1 then
          match u past e.2.2 with
          | none => fail
          | some v' => do
            withObj p (fun m => do let m' ← m.put it' v'; .ok ((), m'))
            mapBy p (mask.resolve w p) u g it' (past ++ [e.2.2])
        else do
          withObj p (fun m => do let m' ← m.put it' e.2.2; .ok ((), m'))
          mapBy p (mask.resolve w p) u g it' past : M T Unit) (w.upd p m c1) := by
      conv => lhs; unfold mapBy
      rw [if_pos h1, bind_ok hp]
      simp only [Bool.false_eq_true, if_false]
      rw [bind_ok (ofObj_ok hst')]
      show ((mask.resolve w p).element e.1 e.2.1 >>= _) _ = _
      rw [bind_ok hel]
      rfl
    have store : ∀ x, Mat.Storable (w.heap p).kind x → ∃ m1, Mat.MapAt m1 it' es ∧ Mat.Wrote m m1 e.1 e.2.1 x ∧
        withObj p (fun m => do let m' ← m.put it' x; .ok ((), m')) (w.upd p m c1) = .ok () (w.upd p m1 c1) := by
      intro x hx
      obtain ⟨m1, g1, g2, g3⟩ := hput x (by rw [hSm.1]; exact hx)
      refine ⟨m1, g2, g3, ?_⟩
      rw [withObj_ok (a := ()) (m := m1) (by rw [World.upd_out, g1]; rfl), World.upd_heap]
    rw [hseen, List.filter_cons] at hst
    rw [hrun, hseen]
    cases hb : mask.bit w e.1 e.2.1 with
    | false =>
      obtain ⟨m1, g1, g2, g3⟩ := store e.2.2 (by
        unfold Mat.Storable
        cases hkk : (w.heap p).kind <;> simp only [] <;> first | trivial | exact hnz (by rw [hkk]; rfl))
      obtain ⟨m', c', f1, f2, f3, f4⟩ := mapBy_run hS hF es g it' past m1 c1 g1 hg (g2.same.trans hSm) hE'
        (by simpa [hb] using hst) (u := u)
      rw [List.filter_cons, hb]
      simp only [Bool.false_eq_true, if_false]
      refine ⟨m', c', f1, f2, fun i j hi hj => ?_, by rw [bind_ok g3]; exact f4⟩
      rw [f3 i j (by rw [g2.same.2.1]; exact hi) (by rw [g2.same.2.2]; exact hj)]
      refine patch_congr ?_
      by_cases hij : i = e.1 ∧ j = e.2.1
      · rw [hij.1, hij.2, g2.hit, hv]
      · exact g2.miss i j hi hj hij
    | true =>
      rw [List.filter_cons, hb]
      simp only [if_true]
      cases hu : u past e.2.2 with
      | none =>
        refine ⟨m, c1, hY.wf, hSm, fun i j _ _ => ?_, ?_⟩
        · simp [answers, hu, patch]
        · simp only [answers, hu]; rfl
      | some x =>
        rw [hb] at hst
        simp only [if_true, answers, hu] at hst
        obtain ⟨m1, g1, g2, g3⟩ := store x (hst (e.1, e.2.1, x) (List.mem_cons_self ..))
        obtain ⟨m', c', f1, f2, f3, f4⟩ := mapBy_run hS hF es g it' (past ++ [e.2.2]) m1 c1 g1 hg
          (g2.same.trans hSm) hE' (fun a ha => hst a (List.mem_cons_of_mem _ ha)) (u := u)
        refine ⟨m', c', f1, f2, fun i j hi hj => ?_, by simp only [answers, hu]; rw [bind_ok g3]; exact f4⟩
        rw [f3 i j (by rw [g2.same.2.1]; exact hi) (by rw [g2.same.2.2]; exact hj)]
        simp only [answers, hu, patch_cons]
        refine patch_congr ?_
        by_cases hij : i = e.1 ∧ j = e.2.1
        · rw [if_pos hij, hij.1, hij.2, g2.hit]
        · rw [if_neg hij]; exact g2.miss i j hi hj hij

/-- In place, on a sparse vector: `done` are the values already replaced. -/
theorem mapBy_svec {w : World T} {p : Ref} {mask : Mask} {u : List T → T → Option T} {v : SVec T} (hv : w.heap p = .svec v)
    (hS : mask.Sound w) (hF : mask.Fits w p) (hmo : mask ≠ .ref p) (hlen : v.indices.length = v.values.length) :
    ∀ (es : List (Nat × Nat × T)) (g : Nat) (it : SVec.Iter) (past done : List T) (c : Option Nat),
      (_h1 : done.length + es.length = v.indices.length) → it.last = done.length → it.size = v.values.length → es.length ≤ g →
      (∀ k (h : k < es.length), es[k] = (v.indices[done.length + k]'(by omega), 0, es[k].2.2)) →
      (∀ e ∈ es, e.1 < v.l ∧ isZero e.2.2 = false) →
      (∀ a ∈ (answers u past ((seen c es).filter fun e => mask.bit w e.1 e.2.1)).1, isZero a.2.2 = false) →
      ∃ c', mapBy p (mask.resolve w p) u g (.svec it) past
          (w.upd p (.svec { v with values := done ++ es.map fun e => e.2.2 }) c) =
        finish (answers u past ((seen c es).filter fun e => mask.bit w e.1 e.2.1)).2 (w.upd p
          (.svec { v with values := (done ++ replies (fun e => mask.bit w e.1 e.2.1) u past (seen c es) ++
            (es.drop (seen c es).length).map fun e => e.2.2) }) c')
  | [], g, it, past, done, c, h1, h2, h3, _, _, _, _ => by
    have hs : seen c ([] : List (Nat × Nat × T)) = [] := by cases c <;> simp [seen]
    have hn : (Mat.Iter.svec it).hasNext = false := by
      simp only [Mat.Iter.hasNext, SVec.Iter.hasNext, decide_eq_false_iff_not]
      simp at h1; omega
    refine ⟨c, ?_⟩
    rw [hs]
    cases g <;> (unfold mapBy; simp [hn, finish, answers, replies])
  | e :: es, 0, it, past, done, c, _, _, _, hg, _, _, _ => by simp at hg
  | e :: es, g + 1, it, past, done, c, h1, h2, h3, hg, hI, hE, hst => by
    have hg : es.length ≤ g := by simpa using hg
    simp only [List.length_cons] at h1
    have hn : (Mat.Iter.svec it).hasNext = true := by
      simp only [Mat.Iter.hasNext, SVec.Iter.hasNext, decide_eq_true_eq]
      omega
    by_cases hc : c = some 0
    · subst hc
      refine ⟨some 0, ?_⟩
      unfold mapBy
      rw [if_pos hn]
      simp only [seen, List.take_zero, List.length_nil, List.drop_zero, replies, List.append_nil]
      rfl
    obtain ⟨c1, hp, hseen⟩ : ∃ c1, (∀ m, (M.poll : M T Bool) (w.upd p m c) = .ok false (w.upd p m c1)) ∧
        seen c (e :: es) = e :: seen c1 es := by
      rcases c with _ | _ | k
      · exact ⟨none, fun _ => rfl, rfl⟩
      · exact absurd rfl hc
      · exact ⟨some k, fun _ => rfl, rfl⟩
    obtain ⟨hb, hnz⟩ := hE e (by simp)
    have hki : done.length < v.indices.length := by omega
    have he : e = (v.indices[done.length], 0, e.2.2) := hI 0 (by simp)
    have hold : it.next.old = done.length := by simp [SVec.Iter.next, h2]
    have hval : ∀ vs : List T, idx (done ++ e.2.2 :: vs) done.length = .ok e.2.2 := by
      intro vs
      rw [idx_ok (by simp)]; simp
    have hstep : (Mat.svec { v with values := done ++ (e :: es).map fun e => e.2.2 }).step (.svec it) = .ok (.svec it.next, e) := by
      have a1 : idx v.indices done.length = .ok v.indices[done.length] := idx_ok hki
      simp only [Mat.step, SVec.step, hold, a1, List.map_cons, hval, Out.ok_bind]
      rw [← he]
    have hput : ∀ x, isZero x = false → (Mat.svec { v with values := done ++ (e :: es).map fun e => e.2.2 }).put (.svec it.next) x =
        .ok (.svec { v with values := (done ++ [x]) ++ es.map fun e => e.2.2 }) := by
      intro x hx
      have hl : done.length < (done ++ (e :: es).map fun e => e.2.2).length := by simp
      simp only [Mat.put, SVec.put, hold, hx, Bool.not_false, if_true, setIdx_ok hl, Out.ok_bind]
      congr 3
      rw [List.set_append_right _ _ (Nat.le_refl _)]
      simp
    have hel := Mask.element_apart hS hmo (i := e.1) (j := e.2.1)
      (hF.in (by rw [hv]; exact hb) (by rw [hv, he]; exact Nat.one_pos))
    have hI' : ∀ (x : T) k (h : k < es.length), es[k] = (v.indices[(done ++ [x]).length + k]'(by simp; omega), 0, es[k].2.2) := by
      intro x k hk
      have := hI (k + 1) (by simp; omega)
      simp only [List.getElem_cons_succ] at this
      rw [this]
      simp only [List.length_append, List.length_cons, List.length_nil]
      congr 2
      omega
    have hrun : mapBy p (mask.resolve w p) u (g + 1) (.svec it) past
          (w.upd p (.svec { v with values := done ++ (e :: es).map fun e => e.2.2 }) c) =
        (if mask.bit w e.1 e.2.1 then
          match u past e.2.2 with
          | none => fail
          | some v' => do
            withObj p (fun m => do let m' ← m.put (.svec it.next) v'; .ok ((), m'))
            mapBy p (mask.resolve w p) u g (.svec it.next) (past ++ [e.2.2])
        else do
          withObj p (fun m => do let m' ← m.put (.svec it.next) e.2.2; .ok ((), m'))
          mapBy p (mask.resolve w p) u g (.svec it.next) past : M T Unit)
          (w.upd p (.svec { v with values := done ++ (e :: es).map fun e => e.2.2 }) c1) := by
      conv => lhs; unfold mapBy
      rw [if_pos hn, bind_ok (hp _)]
      simp only [Bool.false_eq_true, if_false]
      rw [bind_ok (ofObj_ok (by rw [World.upd_out]; exact hstep))]
      show ((mask.resolve w p).element e.1 e.2.1 >>= _) _ = _
      rw [bind_ok (hel _ _)]
      rfl
    have store : ∀ x, isZero x = false → withObj p (fun m => do let m' ← m.put (.svec it.next) x; .ok ((), m'))
        (w.upd p (.svec { v with values := done ++ (e :: es).map fun e => e.2.2 }) c1) =
          .ok () (w.upd p (.svec { v with values := (done ++ [x]) ++ es.map fun e => e.2.2 }) c1) := by
      intro x hx
      rw [withObj_ok (a := ()) (m := .svec { v with values := (done ++ [x]) ++ es.map fun e => e.2.2 })
        (by rw [World.upd_out, hput x hx]; rfl), World.upd_heap]
    have step : ∀ x past', isZero x = false →
        (∀ a ∈ (answers u past' ((seen c1 es).filter fun e => mask.bit w e.1 e.2.1)).1, isZero a.2.2 = false) → _ :=
      fun x past' _ h => mapBy_svec hv hS hF hmo hlen es g it.next past' (done ++ [x]) c1 (by simp; omega)
        (by simp [SVec.Iter.next, h2]) (by simpa [SVec.Iter.next] using h3) hg (hI' x) (fun e' he' => hE e' (by simp [he'])) h (u := u)
    rw [hseen, List.filter_cons] at hst
    rw [hrun, hseen, List.filter_cons]
    cases hbit : mask.bit w e.1 e.2.1 with
    | false =>
      rw [hbit] at hst
      obtain ⟨c', f⟩ := step e.2.2 past hnz (by simpa using hst)
      refine ⟨c', ?_⟩
      simp only [Bool.false_eq_true, if_false, replies, hbit]
      rw [bind_ok (store _ hnz), f]
      simp [List.append_assoc]
    | true =>
      rw [hbit] at hst
      simp only [if_true] at hst ⊢
      cases hu : u past e.2.2 with
      | none =>
        refine ⟨c1, ?_⟩
        simp only [answers, hu, replies, hbit, if_true]
        have : (seen c1 es).map (fun e => e.2.2) ++ (es.drop (seen c1 es).length).map (fun e => e.2.2) = es.map fun e => e.2.2 := by
          rw [← List.map_append]
          congr 1
          cases c1 with
          | none => simp [seen]
          | some k =>
            simp only [seen, List.length_take]
            rcases Nat.le_total k es.length with hk | hk
            · rw [Nat.min_eq_left hk, List.take_append_drop]
            · rw [Nat.min_eq_right hk, List.take_of_length_le hk, List.drop_length, List.append_nil]
        simp only [List.length_cons, List.drop_succ_cons, List.append_assoc, List.cons_append, this]
        rfl
      | some x =>
        simp only [answers, hu] at hst
        have hx := hst (e.1, e.2.1, x) (List.mem_cons_self ..)
        obtain ⟨c', f⟩ := step x (past ++ [e.2.2]) hx (fun a ha => hst a (List.mem_cons_of_mem _ ha))
        refine ⟨c', ?_⟩
        simp only [answers, hu, replies, hbit, if_true]
        rw [bind_ok (store _ hx), f]
        simp [List.append_assoc]

end Ops
end GB
