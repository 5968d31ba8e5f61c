import Verif.Lemmas.Replay
import Verif.Props.SparseEnum

/-!
# The calls each operator makes on its output
-/

namespace GB

set_option linter.unusedSectionVars false
set_option linter.unusedSimpArgs false

open M

variable {T : Type} [GoNum T] [GoStore T] {w : World T} {out : Ref} {mask : Mask}

/-- `if !mask.Element(i, j) { out.Set(a, b, v) }`. -/
theorem Follows.masked_set (hS : mask.Sound w) (hmo : mask ≠ .ref out) {i j a b : Nat} {v : T}
    (hin : mask.Covers w i j)
    (ha : a < (w.heap out).rows) (hb : b < (w.heap out).cols) :
    Follows w out (if mask.bit w i j then [] else [some (.set a b v)]) (none : Option Unit) (some ()) (do
      let e ← (mask.resolve w out).element i j
      if !e then M.set out a b v
      pure none) := by
  cases hbit : mask.bit w i j with
  | true =>
    refine Follows.idle (fun m c _ _ => ?_)
    rw [bind_ok (Mask.element_apart hS hmo hin m c), hbit]; rfl
  | false =>
    refine Follows.one ⟨ha, hb⟩ (fun m m' c _ _ e => ?_)
    have e : m.set a b v = .ok m' := e
    rw [bind_ok (Mask.element_apart hS hmo hin m c), hbit]
    simp only [Bool.not_false, if_true]
    have : M.set out a b v (w.upd out m c) = .ok () (w.upd out m' c) := by
      unfold M.set
      rw [withObj_ok (a := ()) (m := m') (by rw [World.upd_out, e]; rfl), World.upd_heap]
    rw [bind_ok this]; rfl

/-- `if !mask.Element(i, j) { out.Update(i, j, f) }`. -/
theorem Follows.masked_update (hS : mask.Sound w) (hmo : mask ≠ .ref out) {i j : Nat} {f : T → T}
    (hin : mask.Covers w i j)
    (ha : i < (w.heap out).rows) (hb : j < (w.heap out).cols) :
    Follows w out (if mask.bit w i j then [] else [some (.update i j f)]) (none : Option Unit) (some ()) (do
      let e ← (mask.resolve w out).element i j
      if !e then M.update out i j f
      pure none) := by
  cases hbit : mask.bit w i j with
  | true =>
    refine Follows.idle (fun m c _ _ => ?_)
    rw [bind_ok (Mask.element_apart hS hmo hin m c), hbit]; rfl
  | false =>
    refine Follows.one ⟨ha, hb⟩ (fun m m' c _ _ e => ?_)
    have e : m.update i j f = .ok m' := e
    rw [bind_ok (Mask.element_apart hS hmo hin m c), hbit]
    simp only [Bool.not_false, if_true]
    have : M.update out i j f (w.upd out m c) = .ok () (w.upd out m' c) := by
      unfold M.update
      rw [withObj_ok (a := ()) (m := m') (by rw [World.upd_out, e]; rfl), World.upd_heap]
    rw [bind_ok this]; rfl

/-- Reading another object first. -/
theorem Follows.after {α β : Type} {ds : List (Option (Op T))} {a : α} {b b' : β} {x : M T α} {y : α → M T β}
    (hx : ∀ m c, m.Inv → Mat.Same m (w.heap out) → x (w.upd out m c) = .ok a (w.upd out m c))
    (hy : Follows w out ds b b' (y a)) : Follows w out ds b b' (x >>= y) :=
  hy.congr fun m c hm hS => by rw [bind_ok (hx m c hm hS)]

theorem Follows.done {α β : Type} {ds : List (Option (Op T))} {a a' : α} {b : β} {x : M T α} (hx : Follows w out ds a a' x) :
    Follows w out ds b b (x >>= fun _ => pure b) := by
  have := hx.bind (y := fun _ => (pure b : M T β)) (a' := b) (b' := b) (ys := []) (Follows.idle (fun _ _ _ _ => rfl))
    (fun _ => rfl)
  rwa [List.append_nil] at this

namespace Ops

theorem add_follows {s m : Ref} (hs : (w.heap s).Inv) (hm : (w.heap m).Inv) (h1 : SameShape (w.heap s) (w.heap m))
    (h2 : SameShape (w.heap s) (w.heap out)) (hF : mask.Fits w out) (hS : mask.Sound w) (hmo : mask ≠ .ref out)
    (hso : s ≠ out) (hmo' : m ≠ out) (hgs : (w.heap s).nvalues ≤ w.gas) (hgm : (w.heap m).nvalues ≤ w.gas)
    (ho : (w.heap out).Inv) :
    Replays w out ((OpCall.add s m).doings w mask) () () (Ops.add s m mask out w) := by
  have hrun : Ops.add s m mask out w = (forEach (addOver w s m) (some ()) (fun r c v => do
      let value ← at' (addSource w s m) r c
      let e ← (mask.resolve w out).element r c
      if !e then M.set out r c (value + v)
      pure none) >>= fun _ => pure ()) w := by
    unfold Ops.add
    simp only [bind_apply, colsOf_apply, rowsOf_apply, h1.1, h1.2, ne_eq, not_true, if_false, pure_apply,
      Mask.orEmpty_apply, Mask.check_ok hF, isSparse_apply]
    by_cases hsp : (w.heap s).typeName ∈ w.reg <;> simp [addOver, addSource, hsp, bind_apply]
  rw [hrun]
  have h3 : SameShape (w.heap m) (w.heap out) := ⟨h1.1.symm.trans h2.1, h1.2.symm.trans h2.2⟩
  have hO : (w.heap (addOver w s m)).Inv ∧ SameShape (w.heap (addOver w s m)) (w.heap out) ∧ addOver w s m ≠ out ∧
      (w.heap (addOver w s m)).nvalues ≤ w.gas ∧ lead w s m = w.heap (addOver w s m) := by
    unfold addOver lead; split
    · exact ⟨hs, h2, hso, hgs, rfl⟩
    · exact ⟨hm, h3, hmo', hgm, rfl⟩
  have hR : (w.heap (addSource w s m)).Inv ∧ SameShape (w.heap (addSource w s m)) (w.heap out) ∧ addSource w s m ≠ out ∧
      follow w s m = w.heap (addSource w s m) := by
    unfold addSource follow; split
    · exact ⟨hm, h3, hmo', rfl⟩
    · exact ⟨hs, h2, hso, rfl⟩
  refine Follows.here (Follows.done (a := none) (a' := some ()) ?_) ho
  simp only [OpCall.doings]
  rw [hO.2.2.2.2, hR.2.2.2]
  refine Follows.forEach hO.2.2.1 hO.1 hO.2.2.2.1 (fun e he => ?_)
  obtain ⟨hi, hj⟩ := hO.1.entries_in he
  rw [hO.2.1.1] at hi; rw [hO.2.1.2] at hj
  exact Follows.after (fun m' c _ _ => at_apart hR.1 hR.2.2.1 (by rw [hR.2.1.1]; exact hi) (by rw [hR.2.1.2]; exact hj) m' c)
    (Follows.masked_set hS hmo (hF.in hi hj) hi hj)

theorem subtract_follows {s m : Ref} (hs : (w.heap s).Inv) (h1 : SameShape (w.heap s) (w.heap m))
    (h2 : SameShape (w.heap s) (w.heap out)) (hF : mask.Fits w out) (hS : mask.Sound w) (hmo : mask ≠ .ref out)
    (hso : s ≠ out) (hgs : (w.heap s).nvalues ≤ w.gas) (ho : (w.heap out).Inv) :
    Replays w out ((OpCall.subtract s m).doings w mask) () () (Ops.subtract s m mask out w) := by
  have hrun : Ops.subtract s m mask out w = (forEach s (some ()) (fun r c value => do
      let e ← (mask.resolve w out).element r c
      if !e then M.update out r c (fun v => value - v)
      pure none) >>= fun _ => pure ()) w := by
    unfold Ops.subtract
    simp only [bind_apply, colsOf_apply, rowsOf_apply, h1.1, h1.2, ne_eq, not_true, if_false, pure_apply,
      Mask.orEmpty_apply, Mask.check_ok hF]
  rw [hrun]
  refine Follows.here (Follows.done (a := none) (a' := some ()) ?_) ho
  refine Follows.forEach hso hs hgs (fun e he => ?_)
  obtain ⟨hi, hj⟩ := hs.entries_in he
  rw [h2.1] at hi; rw [h2.2] at hj
  exact Follows.masked_update hS hmo (hF.in hi hj) hi hj

theorem eMul_follows {s m : Ref} (hs : (w.heap s).Inv) (hm : (w.heap m).Inv)
    (h1 : SameShape (w.heap s) (w.heap out)) (h2 : SameShape (w.heap m) (w.heap out))
    (hF : mask.Fits w out) (hS : mask.Sound w) (hmo : mask ≠ .ref out) (hso : s ≠ out) (hmo' : m ≠ out)
    (hgs : (w.heap s).nvalues ≤ w.gas) (hgm : (w.heap m).nvalues ≤ w.gas) (ho : (w.heap out).Inv) :
    Replays w out ((OpCall.eMulMatrix s m).doings w mask) () () (Ops.elementWiseMultiply s m mask out w) := by
  have hrun : elementWiseMultiply s m mask out w = (forEach (addOver w s m) (some ()) (fun r c v => do
      eMulTarget (addSource w s m) out (mask.resolve w out) r c v; pure none) >>= fun _ => pure ()) w := by
    unfold elementWiseMultiply
    rw [Mask.pre_ok hF]
    simp only [if_neg hso, if_neg hmo', bind_apply, isSparse_apply]
    by_cases hsp : (w.heap s).typeName ∈ w.reg <;> simp [addOver, addSource, hsp, bind_apply]
  rw [hrun]
  have hO : (w.heap (addOver w s m)).Inv ∧ SameShape (w.heap (addOver w s m)) (w.heap out) ∧ addOver w s m ≠ out ∧
      (w.heap (addOver w s m)).nvalues ≤ w.gas ∧ lead w s m = w.heap (addOver w s m) := by
    unfold addOver lead; split
    · exact ⟨hs, h1, hso, hgs, rfl⟩
    · exact ⟨hm, h2, hmo', hgm, rfl⟩
  have hR : (w.heap (addSource w s m)).Inv ∧ SameShape (w.heap (addSource w s m)) (w.heap out) ∧ addSource w s m ≠ out ∧
      follow w s m = w.heap (addSource w s m) := by
    unfold addSource follow; split
    · exact ⟨hm, h2, hmo', rfl⟩
    · exact ⟨hs, h1, hso, rfl⟩
  refine Follows.here (Follows.done (a := none) (a' := some ()) ?_) ho
  simp only [OpCall.doings]
  rw [hO.2.2.2.2, hR.2.2.2]
  refine Follows.forEach hO.2.2.1 hO.1 hO.2.2.2.1 (fun e he => ?_)
  obtain ⟨hi, hj⟩ := hO.1.entries_in he
  rw [hO.2.1.1] at hi; rw [hO.2.1.2] at hj
  have ha := fun m' c (_ : m'.Inv) (_ : Mat.Same m' (w.heap out)) => at_apart hR.1 hR.2.2.1 (i := e.1) (j := e.2.1)
    (by rw [hR.2.1.1]; exact hi) (by rw [hR.2.1.2]; exact hj) m' c
  have hel := fun m' c => Mask.element_apart hS hmo (hF.in hi hj) m' c
  cases hq : GoNum.geq e.2.2 ((w.heap (addSource w s m)).val e.1 e.2.1) with
  | false =>
    simp only [Bool.false_and, Bool.false_eq_true, if_false]
    refine Follows.idle (fun m' c hm' hS' => ?_)
    unfold eMulTarget
    rw [bind_apply, bind_ok (ha m' c hm' hS'), hq]; rfl
  | true =>
    have := Follows.masked_set (a := e.1) (b := e.2.1) (v := e.2.2) hS hmo (hF.in hi hj) hi hj
    have hl : (if (true && !mask.bit w e.1 e.2.1) = true then [some (Op.set e.1 e.2.1 e.2.2)] else []) =
        if mask.bit w e.1 e.2.1 then [] else [some (Op.set e.1 e.2.1 e.2.2)] := by
      cases mask.bit w e.1 e.2.1 <;> rfl
    rw [hl]
    refine this.congr (fun m' c hm' hS' => ?_)
    unfold eMulTarget
    rw [bind_apply, bind_ok (ha m' c hm' hS'), hq]
    simp only [if_true]
    rw [bind_ok (hel m' c), bind_ok (hel m' c)]
    cases mask.bit w e.1 e.2.1 <;> rfl

theorem eAddLoop_follows {s : Ref} (hs : (w.heap s).Inv) (h1 : SameShape (w.heap s) (w.heap out))
    (hF : mask.Fits w out) (hS : mask.Sound w) (hmo : mask ≠ .ref out) (hso : s ≠ out)
    (hgs : (w.heap s).nvalues ≤ w.gas) :
    Follows w out ((w.heap s).entries.flatMap fun e =>
      none :: if isZero e.2.2 || mask.bit w e.1 e.2.1 then [] else [some (.set e.1 e.2.1 e.2.2)]) none (some ())
      (eAddLoop s (mask.resolve w out) out) := by
  refine Follows.forEach hso hs hgs (fun e he => ?_)
  obtain ⟨hi, hj⟩ := hs.entries_in he
  rw [h1.1] at hi; rw [h1.2] at hj
  cases hz : isZero e.2.2 with
  | true => exact Follows.idle (fun _ _ _ _ => rfl)
  | false =>
    rw [Bool.false_or]
    exact (Follows.masked_set (a := e.1) (b := e.2.1) (v := e.2.2) hS hmo (hF.in hi hj) hi hj).congr
      (fun _ _ _ _ => by simp only [Bool.not_false, if_true])

theorem eAdd_follows {s m : Ref} (hs : (w.heap s).Inv) (hm : (w.heap m).Inv)
    (h1 : SameShape (w.heap s) (w.heap out)) (h2 : SameShape (w.heap m) (w.heap out))
    (hF : mask.Fits w out) (hS : mask.Sound w) (hmo : mask ≠ .ref out) (hso : s ≠ out) (hmo' : m ≠ out)
    (hgs : (w.heap s).nvalues ≤ w.gas) (hgm : (w.heap m).nvalues ≤ w.gas) (ho : (w.heap out).Inv) :
    Replays w out ((OpCall.eAddMatrix s m).doings w mask) () () (Ops.elementWiseAdd s m mask out w) := by
  have hrun : elementWiseAdd s m mask out w = (eAddLoop s (mask.resolve w out) out >>= fun x => match x with
      | some () => pure ()
      | none => eAddLoop m (mask.resolve w out) out >>= fun _ => pure ()) w := by
    unfold elementWiseAdd
    rw [Mask.pre_ok hF]
    simp only [ne_eq, hso, hmo', not_false_eq_true, if_true, bind_apply]
    cases eAddLoop s (mask.resolve w out) out w with
    | ok a w' => cases a <;> rfl
    | panic w' => rfl
    | hang w' => rfl
  rw [hrun]
  refine Follows.here ?_ ho
  simp only [OpCall.doings, List.flatMap_append]
  exact (eAddLoop_follows hs h1 hF hS hmo hso hgs).bind (Follows.done (eAddLoop_follows hm h2 hF hS hmo hmo' hgm))
    (fun _ => rfl)

theorem cross_follows {s : Ref} {u : T → T} (hs : (w.heap s).Inv) (hso : s ≠ out)
    (hshape : (w.heap out).rows = (w.heap s).cols ∧ (w.heap out).cols = (w.heap s).rows ∧
      (mask.Blank ∨ (w.heap s).rows = (w.heap s).cols))
    (hF : mask.Fits w out) (hS : mask.Sound w) (hmo : mask ≠ .ref out) (hgs : (w.heap s).nvalues ≤ w.gas)
    (ho : (w.heap out).Inv) :
    Replays w out ((OpCall.apply s u).doings w mask) () () ((forEach s (some ()) (fun r c value => do
        let e ← (mask.resolve w out).element r c
        if !e then M.set out c r (u value)
        pure none) >>= fun _ => pure ()) w) := by
  refine Follows.here (Follows.done (a := none) (a' := some ()) ?_) ho
  refine Follows.forEach hso hs hgs (fun e he => ?_)
  obtain ⟨hi, hj⟩ := hs.entries_in he
  refine Follows.masked_set hS hmo ?_ (by rw [hshape.1]; exact hj) (by rw [hshape.2.1]; exact hi)
  rcases hshape.2.2 with h | h
  · exact h.covers _ _
  · exact hF.in (by omega) (by omega)

theorem multiply_follows {s m : Ref} (hs : (w.heap s).Inv) (hm : (w.heap m).Inv)
    (h1 : (w.heap m).rows = (w.heap s).cols) (h2 : (w.heap out).rows = (w.heap s).rows)
    (h3 : (w.heap out).cols = (w.heap m).cols) (hF : mask.Fits w out) (hS : mask.Sound w) (hmo : mask ≠ .ref out)
    (hso : s ≠ out) (hmo' : m ≠ out) (ho : (w.heap out).Inv) :
    Replays w out ((OpCall.mxm s m).doings w mask) () () (Ops.multiply s m mask out w) := by
  have hrun : Ops.multiply s m mask out w = (forN (w.heap s).rows 0 (fun r => do
      let rows ← ofObj s (fun x => x.rowsAt r)
      let mc ← colsOf m
      forN mc 0 (fun c => do
        let column ← ofObj m (fun x => x.columnsAt c)
        match ← dot rows column rows.length 0 0 with
        | none => pure (some ())
        | some sum => do
          let e ← (mask.resolve w out).element r c
          if !e then M.set out r c sum
          pure none)) >>= fun _ => pure ()) w := by
    unfold Ops.multiply
    simp only [bind_apply, colsOf_apply, rowsOf_apply, h1, ne_eq, not_true, if_false, pure_apply,
      Mask.orEmpty_apply, Mask.check_ok hF]
    rfl
  rw [hrun]
  refine Follows.here (Follows.done (a := none) (a' := some ()) ?_) ho
  simp only [OpCall.doings, List.range_eq_range']
  refine Follows.forN _ _ (fun i _ hi => ?_)
  rw [Nat.zero_add] at hi
  obtain ⟨v, e1, e2, e3⟩ := hs.rowsAt_val hi
  refine Follows.after (a := v) (fun m' c _ _ => ofObj_ok (by rw [World.upd_ne _ _ _ hso]; exact e1)) ?_
  refine Follows.after (a := (w.heap m).cols) (fun m' c _ _ => by rw [colsOf_apply, World.upd_ne _ _ _ hmo']) ?_
  refine Follows.forN _ _ (fun j _ hj => ?_)
  rw [Nat.zero_add] at hj
  obtain ⟨col, k1, k2, k3⟩ := hm.columnsAt_val hj
  refine Follows.after (a := col) (fun m' c _ _ => ofObj_ok (by rw [World.upd_ne _ _ _ hmo']; exact k1)) ?_
  rw [e2]
  obtain ⟨x, d1, d2⟩ := Follows.dot (w := w) (out := out) (rows := v) (column := col) (n := (w.heap s).cols) e3
    (fun l hl => k3 l (by rw [h1]; exact hl)) (w.heap s).cols 0 0 (by omega)
  have hx : x = dotSum (w.heap s).cols ((w.heap s).rowVal i) ((w.heap m).colVal j) := by
    obtain ⟨y, c2, f1, -, f3⟩ := dotBy_ok (fun _ s a b => s + a * b) (rows := v) (column := col) (n := (w.heap s).cols)
      (a := (w.heap s).rowVal i) (b := (w.heap m).colVal j) e3
      (fun l hl => k3 l (by rw [h1]; exact hl)) (w.heap s).cols 0 (by omega) (w.upd out (w.heap out) none)
    have := d1 (w.upd out (w.heap out) none) rfl
    rw [dot_eq] at this
    have e := f1.symm.trans this
    rcases f3 with ⟨h, -⟩ | h
    · rw [h] at e; cases e
    · rw [h] at e
      injection e with e _
      exact (Option.some.inj e).symm
  subst hx
  exact d2.bind (Follows.masked_set hS hmo (hF.in (by rw [h2]; exact hi) (by rw [h3]; exact hj)) (by rw [h2]; exact hi)
    (by rw [h3]; exact hj)) (fun _ => rfl)

end Ops

/-! ## All operators -/

theorem replay_aux (call : OpCall T) (h : call.Ready w mask out) :
    Replays w out (call.doings w mask) () () (call.run mask out w) := by
  obtain ⟨hops, ho, hsh, hneg, hap, hF, hS, hmo, hg⟩ := h
  cases call with
  | mxm s m =>
    simp only [OpCall.operands, List.mem_cons, List.not_mem_nil, or_false, forall_eq_or_imp, forall_eq] at *
    exact Ops.multiply_follows hops.1 hops.2 hsh.1 hsh.2.1 hsh.2.2 hF hS hmo hap.1 hap.2 ho
  | mxv s m =>
    simp only [OpCall.operands, List.mem_cons, List.not_mem_nil, or_false, forall_eq_or_imp, forall_eq] at *
    exact Ops.multiply_follows hops.1 hops.2 hsh.1 hsh.2.1 hsh.2.2 hF hS hmo hap.1 hap.2 ho
  | vxm m s =>
    simp only [OpCall.operands, List.mem_cons, List.not_mem_nil, or_false, forall_eq_or_imp, forall_eq] at *
    exact Ops.multiply_follows hops.2 hops.1 hsh.1 hsh.2.1 hsh.2.2 hF hS hmo hap.2 hap.1 ho
  | add s m =>
    simp only [OpCall.operands, List.mem_cons, List.not_mem_nil, or_false, forall_eq_or_imp, forall_eq] at *
    exact Ops.add_follows hops.1 hops.2 hsh.1 hsh.2 hF hS hmo hap.1 hap.2 hg.1 hg.2 ho
  | subtract s m =>
    simp only [OpCall.operands, List.mem_cons, List.not_mem_nil, or_false, forall_eq_or_imp, forall_eq] at *
    exact Ops.subtract_follows hops.1 hsh.1 hsh.2 hF hS hmo hap.1 hg.1 ho
  | eMulMatrix s m =>
    simp only [OpCall.operands, List.mem_cons, List.not_mem_nil, or_false, forall_eq_or_imp, forall_eq] at *
    have : (OpCall.eMulMatrix s m).run mask out w = Ops.elementWiseMultiply s m mask out w := by
      show Ops.elementWiseMatrixMultiply s m mask out w = _
      unfold Ops.elementWiseMatrixMultiply
      rw [bind_apply]; simp only [rowsOf]; rw [bind_apply]; simp only [colsOf]; simp [hsh.2.2]
    rw [this]
    exact Ops.eMul_follows hops.1 hops.2 hsh.1 hsh.2.1 hF hS hmo hap.1 hap.2 hg.1 hg.2 ho
  | eMulVector s m =>
    simp only [OpCall.operands, List.mem_cons, List.not_mem_nil, or_false, forall_eq_or_imp, forall_eq] at *
    have : (OpCall.eMulVector s m).run mask out w = Ops.elementWiseMultiply s m mask out w := by
      show Ops.elementWiseVectorMultiply s m mask out w = _
      have : (w.heap m).rows = (w.heap s).rows := hsh.2.1.trans hsh.1.1.symm
      unfold Ops.elementWiseVectorMultiply
      rw [bind_apply]; simp only [rowsOf]; rw [bind_apply]; simp only [rowsOf]; simp [this]
    rw [this]
    exact Ops.eMul_follows hops.1 hops.2 hsh.1 hsh.2 hF hS hmo hap.1 hap.2 hg.1 hg.2 ho
  | eAddMatrix s m =>
    simp only [OpCall.operands, List.mem_cons, List.not_mem_nil, or_false, forall_eq_or_imp, forall_eq] at *
    have : (OpCall.eAddMatrix s m).run mask out w = Ops.elementWiseAdd s m mask out w := by
      show Ops.elementWiseMatrixAdd s m mask out w = _
      unfold Ops.elementWiseMatrixAdd
      rw [bind_apply]; simp only [rowsOf]; rw [bind_apply]; simp only [colsOf]; simp [hsh.2.2]
    rw [this]
    exact Ops.eAdd_follows hops.1 hops.2 hsh.1 hsh.2.1 hF hS hmo hap.1 hap.2 hg.1 hg.2 ho
  | eAddVector s m =>
    simp only [OpCall.operands, List.mem_cons, List.not_mem_nil, or_false, forall_eq_or_imp, forall_eq] at *
    have : (OpCall.eAddVector s m).run mask out w = Ops.elementWiseAdd s m mask out w := by
      show Ops.elementWiseVectorAdd s m mask out w = _
      have : (w.heap m).rows = (w.heap s).rows := hsh.2.1.trans hsh.1.1.symm
      unfold Ops.elementWiseVectorAdd
      rw [bind_apply]; simp only [rowsOf]; rw [bind_apply]; simp only [rowsOf]; simp [this]
    rw [this]
    exact Ops.eAdd_follows hops.1 hops.2 hsh.1 hsh.2 hF hS hmo hap.1 hap.2 hg.1 hg.2 ho
  | apply s u =>
    simp only [OpCall.operands, List.mem_cons, List.not_mem_nil, or_false, forall_eq] at *
    have hsh' : OpCall.Shapes.Crossed w mask s out := hsh.resolve_left hap
    have hrun : (OpCall.apply s u).run mask out w = (forEach s (some ()) (fun r c value => do
        let e ← (mask.resolve w out).element r c
        if !e then M.set out c r (u value)
        pure none) >>= fun _ => pure ()) w := by
      show Ops.apply s mask u out w = _
      unfold Ops.apply; rw [Mask.pre_ok hF]; simp only [hap, if_false]
    rw [hrun]
    exact Ops.cross_follows hops hap hsh' hF hS hmo hg ho
  | transpose s =>
    simp only [OpCall.operands, List.mem_cons, List.not_mem_nil, or_false, forall_eq] at *
    have hrun : (OpCall.transpose s).run mask out w = (forEach s (some ()) (fun r c value => do
        let e ← (mask.resolve w out).element r c
        if !e then M.set out c r (id value)
        pure none) >>= fun _ => pure ()) w := by
      show Ops.transpose s mask out w = _
      unfold Ops.transpose; rw [Mask.pre_ok hF]; rfl
    rw [hrun]
    exact Ops.cross_follows (u := id) hops hap hsh hF hS hmo hg ho
  | negative s => exact absurd rfl (hneg s)

theorem calls_in_range (call : OpCall T) (h : call.Ready w mask out) :
    ∀ o ∈ call.calls w mask, o.InRange (w.heap out).rows (w.heap out).cols := by
  obtain ⟨hops, -, hsh, hneg, hap, -, -, -, -⟩ := h
  have led : ∀ s m : Ref, (w.heap s).Inv → (w.heap m).Inv → SameShape (w.heap s) (w.heap out) →
      SameShape (w.heap m) (w.heap out) → ∀ e ∈ (lead w s m).entries, e.1 < (w.heap out).rows ∧ e.2.1 < (w.heap out).cols := by
    intro s m hs hm h1 h2 e he
    unfold lead at he
    split at he
    · have := hs.entries_in he; rwa [h1.1, h1.2] at this
    · have := hm.entries_in he; rwa [h2.1, h2.2] at this
  have mul : ∀ s m : Ref, (w.heap out).rows = (w.heap s).rows → (w.heap out).cols = (w.heap m).cols →
      ∀ o ∈ (OpCall.mxm s m).calls w mask, o.InRange (w.heap out).rows (w.heap out).cols := by
    intro s m h1 h2 o ho
    simp only [OpCall.calls, List.mem_flatMap, List.mem_range] at ho
    obtain ⟨i, hi, j, hj, ho⟩ := ho
    split at ho
    · simp at ho
    · rw [List.mem_singleton.1 ho]; exact ⟨by omega, by omega⟩
  have cross : ∀ (s : Ref) (u : T → T), (w.heap s).Inv → (w.heap out).rows = (w.heap s).cols →
      (w.heap out).cols = (w.heap s).rows → ∀ o ∈ (OpCall.apply s u).calls w mask,
      o.InRange (w.heap out).rows (w.heap out).cols := by
    intro s u hs h1 h2 o ho
    simp only [OpCall.calls, List.mem_flatMap] at ho
    obtain ⟨e, he, ho⟩ := ho
    have := hs.entries_in he
    split at ho
    · simp at ho
    · rw [List.mem_singleton.1 ho]; exact ⟨by omega, by omega⟩
  have emul : ∀ s m : Ref, (w.heap s).Inv → (w.heap m).Inv → SameShape (w.heap s) (w.heap out) →
      SameShape (w.heap m) (w.heap out) → ∀ o ∈ (OpCall.eMulMatrix s m).calls w mask,
      o.InRange (w.heap out).rows (w.heap out).cols := by
    intro s m hs hm h1 h2 o ho
    simp only [OpCall.calls, List.mem_flatMap] at ho
    obtain ⟨e, he, ho⟩ := ho
    have := led s m hs hm h1 h2 e he
    split at ho
    · rw [List.mem_singleton.1 ho]; exact this
    · simp at ho
  have eadd : ∀ s m : Ref, (w.heap s).Inv → (w.heap m).Inv → SameShape (w.heap s) (w.heap out) →
      SameShape (w.heap m) (w.heap out) → ∀ o ∈ (OpCall.eAddMatrix s m).calls w mask,
      o.InRange (w.heap out).rows (w.heap out).cols := by
    intro s m hs hm h1 h2 o ho
    simp only [OpCall.calls, List.mem_flatMap, List.mem_append] at ho
    obtain ⟨e, he, ho⟩ := ho
    have : e.1 < (w.heap out).rows ∧ e.2.1 < (w.heap out).cols := by
      rcases he with he | he
      · have := hs.entries_in he; rwa [h1.1, h1.2] at this
      · have := hm.entries_in he; rwa [h2.1, h2.2] at this
    split at ho
    · simp at ho
    · rw [List.mem_singleton.1 ho]; exact this
  cases call <;> simp only [OpCall.operands, List.mem_cons, List.not_mem_nil, or_false, forall_eq_or_imp, forall_eq] at hops
  case mxm s m => exact mul s m hsh.2.1 hsh.2.2
  case mxv s m => exact mul s m hsh.2.1 hsh.2.2
  case vxm m s => exact mul s m hsh.2.1 hsh.2.2
  case add s m =>
    intro o ho
    simp only [OpCall.calls, List.mem_flatMap] at ho
    obtain ⟨e, he, ho⟩ := ho
    have := led s m hops.1 hops.2 hsh.2 ⟨hsh.1.1.symm.trans hsh.2.1, hsh.1.2.symm.trans hsh.2.2⟩ e he
    split at ho
    · simp at ho
    · rw [List.mem_singleton.1 ho]; exact this
  case subtract s m =>
    intro o ho
    simp only [OpCall.calls, List.mem_flatMap] at ho
    obtain ⟨e, he, ho⟩ := ho
    have := hops.1.entries_in he
    rw [hsh.2.1, hsh.2.2] at this
    split at ho
    · simp at ho
    · rw [List.mem_singleton.1 ho]; exact this
  case eMulMatrix s m => exact emul s m hops.1 hops.2 hsh.1 hsh.2.1
  case eMulVector s m => exact emul s m hops.1 hops.2 hsh.1 hsh.2
  case eAddMatrix s m => exact eadd s m hops.1 hops.2 hsh.1 hsh.2.1
  case eAddVector s m => exact eadd s m hops.1 hops.2 hsh.1 hsh.2
  case apply s u =>
    rcases hsh with rfl | hsh
    · exact absurd rfl (hap s (by simp [OpCall.operands]))
    · exact cross s u hops hsh.1 hsh.2.1
  case transpose s => exact cross s id hops hsh.1 hsh.2.1
  case negative s => exact absurd rfl (hneg s)

/-- Leaving out the looks. -/
theorem doings_calls (call : OpCall T) : (call.doings w mask).filterMap id = call.calls w mask := by
  have rep : ∀ n, (List.replicate n (none : Option (Op T))).filterMap id = [] := by
    intro n; induction n <;> simp_all [List.replicate_succ]
  cases call <;> simp only [OpCall.doings, OpCall.calls, List.filterMap_flatMap, List.filterMap_nil]
  case mxm | mxv | vxm =>
    refine List.flatMap_congr fun i _ => List.flatMap_congr fun j _ => ?_
    rw [List.filterMap_append, rep]; split <;> rfl
  all_goals
    refine List.flatMap_congr fun e _ => ?_
    rw [List.filterMap_cons_none rfl]; split <;> rfl

/-- On a sparse vector all calls except those of `Subtract` are `Set` of column 0. -/
theorem calls_set (call : OpCall T) (h : call.Ready w mask out) (hsub : ∀ s m, call ≠ .subtract s m) {v : SVec T}
    (hv : w.heap out = .svec v) : ∀ o ∈ call.calls w mask, ∃ i v', o = .set i 0 v' ∧ i < v.l := by
  have hin := calls_in_range call h
  rw [hv] at hin
  intro o ho
  have hr := hin o ho
  have : ∃ i j v', o = Op.set i j v' := by
    cases call <;> simp only [OpCall.calls, List.mem_flatMap] at ho
    case subtract s m => exact absurd rfl (hsub s m)
    case negative => simp at ho
    all_goals
      first
      | (obtain ⟨i, -, j, -, ho⟩ := ho
         split at ho
         · simp at ho
         · exact ⟨_, _, _, List.mem_singleton.1 ho⟩)
      | (obtain ⟨e, -, ho⟩ := ho
         split at ho
         · first | simp at ho; done | exact ⟨_, _, _, List.mem_singleton.1 ho⟩
         · first | exact ⟨_, _, _, List.mem_singleton.1 ho⟩ | simp at ho; done)
  obtain ⟨i, j, v', rfl⟩ := this
  obtain ⟨h1, h2⟩ := hr
  have h2 : j < 1 := h2
  obtain rfl : j = 0 := by omega
  exact ⟨i, v', rfl, h1⟩

theorem run_runVec (ops : List (Op T)) : ∀ {s : SVec T} {m' : Mat T}, (∀ o ∈ ops, ∃ i v, o = .set i 0 v ∧ i < s.l) →
    (Mat.svec s).run ops = .ok m' → ∃ s', m' = .svec s' ∧ s.runVec (ops.filterMap Op.written) = .ok s' := by
  induction ops with
  | nil => intro s m' _ e; exact ⟨s, (Out.ok.inj e).symm, rfl⟩
  | cons o ops ih =>
    intro s m' ho e
    obtain ⟨i, v, rfl, hi⟩ := ho o (by simp)
    have hs : (Op.set i 0 v).apply (Mat.svec s) = (s.setVec i v >>= fun s' => .ok (.svec s')) := by
      simp [Op.apply, Mat.set, SVec.set, hi, show inRange 0 1 = true from rfl]
    simp only [Mat.run, hs] at e
    simp only [List.filterMap_cons, Op.written, SVec.runVec]
    cases hv : s.setVec i v with
    | ok s1 =>
      rw [hv] at e
      simp only [Out.ok_bind] at e ⊢
      have hl : s1.l = s.l := by
        unfold SVec.setVec at hv
        simp only [inRange_natCast, hi, decide_true, if_true, Int.toNat_natCast] at hv
        obtain ⟨p, h1, -⟩ := SVec.index_le s i
        rw [h1] at hv
        have hins : ∀ {p : Nat} {x : T} {s1 : SVec T}, s.insert p i x = .ok s1 → s1.l = s.l := by
          intro p x s1 h
          unfold SVec.insert at h
          split at h
          · rw [← Out.ok.inj h]
          · cases h2 : splice s.indices p i <;> rw [h2] at h <;> try cases h
            cases h3 : splice s.values p x <;> rw [h3] at h <;> cases h
            rfl
        simp only [Out.ok_bind] at hv
        split at hv
        · rename_i hp
          simp only [idx_ok hp, Out.ok_bind] at hv
          split at hv
          · split at hv
            · unfold SVec.remove at hv
              cases h2 : unsplice s.indices p <;> rw [h2] at hv <;> try cases hv
              cases h3 : unsplice s.values p <;> rw [h3] at hv <;> cases hv
              rfl
            · cases h2 : setIdx s.values p v <;> rw [h2] at hv <;> cases hv
              rfl
          · exact hins hv
        · exact hins hv
      exact ih (fun o h => by obtain ⟨a, b, c, d⟩ := ho o (by simp [h]); exact ⟨a, b, c, by rw [hl]; exact d⟩) e
    | panic => rw [hv] at e; cases e
    | hang => rw [hv] at e; cases e

end GB
