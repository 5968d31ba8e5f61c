import Verif.Lemmas.Safe
import Verif.Lemmas.Meth
import Verif.Props.Effects

/-!
# Operators return on reachable operands: C52, and C48 for all five formats

The operands, the output and the mask are objects of any of the five formats in any state a program can
bring about (`Reach`), including the sparse vectors that hold duplicated positions because of
sparseVector.go:191. The cancellation point is arbitrary.
-/

namespace GB

open Meth

section spec
variable {T : Type} [GoNum T]

/-- Operand and output shapes as the operators' doc comments ask for them (`Apply` into another object
stores transposed, operators.go:362; a mask of the output's shape is indexed by the operand's
cells there and in `Transpose`). -/
def OpCall.Shapes (w : World T) (mask : Mask) (out : Ref) : OpCall T → Prop
  | .mxm s m | .mxv s m | .vxm m s =>
      (w.heap m).rows = (w.heap s).cols ∧ (w.heap out).rows = (w.heap s).rows ∧ (w.heap out).cols = (w.heap m).cols
  | .add s m | .subtract s m => SameShape (w.heap s) (w.heap m) ∧ SameShape (w.heap s) (w.heap out)
  | .eMulVector s m | .eAddVector s m => SameShape (w.heap s) (w.heap out) ∧ SameShape (w.heap m) (w.heap out)
  | .eMulMatrix s m | .eAddMatrix s m => SameShape (w.heap s) (w.heap out) ∧ SameShape (w.heap m) (w.heap out) ∧
      (w.heap m).rows = (w.heap s).cols
  | .apply s _ => s = out ∨ Crossed w mask s out
  | .negative _ => True
  | .transpose s => Crossed w mask s out
where
  /-- The output has the transposed shape of `s`; a mask other than nil and `EmptyMask` only with a square one. -/
  Crossed (w : World T) (mask : Mask) (s out : Ref) : Prop :=
    (w.heap out).rows = (w.heap s).cols ∧ (w.heap out).cols = (w.heap s).rows ∧
      (mask.Blank ∨ (w.heap s).rows = (w.heap s).cols)

/-- The operands' shapes agree with each other. -/
def OpCall.Compatible (w : World T) : OpCall T → Prop
  | .mxm s m | .mxv s m | .vxm m s => (w.heap m).rows = (w.heap s).cols
  | .add s m | .subtract s m => SameShape (w.heap s) (w.heap m)
  | .eMulVector s m | .eAddVector s m => (w.heap m).rows = (w.heap s).rows
  | .eMulMatrix s m | .eAddMatrix s m => (w.heap m).rows = (w.heap s).cols
  | .apply _ _ | .negative _ | .transpose _ => True

/-- The operands of a call. -/
def OpCall.operands : OpCall T → List Ref
  | .mxm s m | .mxv s m | .vxm s m | .add s m | .subtract s m | .eMulMatrix s m | .eMulVector s m
  | .eAddMatrix s m | .eAddVector s m => [s, m]
  | .apply s _ | .negative s | .transpose s => [s]

/-- The object is dense: writing into it does not move its cells. -/
def Mat.Fixed (m : Mat T) : Prop := m.kind = .dense ∨ m.kind = .dvec

/-- The calls that do not write into a compressed object while they enumerate it, or write only
non-zero values over its non-zero ones. -/
def OpCall.Calm (w : World T) (out : Ref) : OpCall T → Prop
  | .mxm _ _ | .mxv _ _ | .vxm _ _ | .eAddMatrix _ _ | .eAddVector _ _ => True
  | .add s m => s = out ∨ m = out → (w.heap out).Fixed
  | .subtract s _ => s = out → (w.heap out).Fixed
  | .eMulMatrix s m | .eMulVector s m => s = out → m = out → (w.heap out).Fixed
  | .apply s u => s = out → (w.heap out).Fixed ∨ ∀ v, isZero v = false → isZero (u v) = false
  | .negative _ => (w.heap out).Fixed ∨ ∀ v : T, isZero v = false → isZero (-v) = false
  | .transpose s => s = out → (w.heap out).Fixed

/-- The calls that store through `Map` in place. -/
def OpCall.InPlace (out : Ref) : OpCall T → Prop
  | .apply s _ => s = out
  | .negative _ => True
  | _ => False

/-- The mask, if it is a matrix, is reachable; if it is something else, it answers about all its cells. -/
def Mask.Reached (w : World T) : Mask → Prop
  | .ref p => Reach (w.heap p)
  | .given r c el => ∀ i j, i < r → j < c → ∃ b, el i j = some b
  | _ => True

end spec

section
variable {T : Type} [GoNum T] [GoStore T] {w : World T} {out : Ref} {mask : Mask}

theorem Mask.Reached.sound (h : mask.Reached w) : mask.Sound w := by
  cases mask with
  | ref p => exact Reach.inv h
  | nil => trivial
  | empty r c => trivial
  | given r c el => exact h

/-- What C52 says of one call: it returns, the output keeps its format and shape and its
representation invariant, no other object changes, and the output is again in a state that constructors
and in-range `Set`/`Update` calls produce (for a sparse vector changed in place by `Map` only the
invariant). -/
def Returned (w : World T) (out : Ref) (call : OpCall T) (r : Res T Unit) : Prop :=
  ∃ w', r = .ok () w' ∧ (∀ q, q ≠ out → w'.heap q = w.heap q) ∧ Mat.Same (w'.heap out) (w.heap out) ∧
    (w'.heap out).Inv ∧ (¬ (call.InPlace out ∧ (w.heap out).kind = .svec) → Reach (w'.heap out))

omit [GoStore T] in
theorem Returned.of_scene {call : OpCall T} {r : Res T Unit} {R : Mat T → Prop}
    (h : ∃ a w', r = .ok a w' ∧ Scene R w out w')
    (hR : ¬ (call.InPlace out ∧ (w.heap out).kind = .svec) → ∀ m, R m → Reach m) : Returned w out call r := by
  obtain ⟨a, w', h1, h2⟩ := h
  exact ⟨w', h1, h2.others, h2.same, h2.inv, fun hn => hR hn _ h2.good⟩

/-- C52: on reachable objects of all five formats, with any mask and any cancellation point, every
operator call whose shapes fit returns, and leaves a reachable output — unless it has to write zeros into
a compressed object while enumerating it (`OpCall.Calm`; see `C52_refuted`). -/
theorem C52_returns_partial (call : OpCall T) (hops : ∀ p ∈ call.operands, Reach (w.heap p)) (hout : Reach (w.heap out))
    (hmask : mask.Reached w) (hF : mask.Fits w out) (hshape : call.Shapes w mask out) (hcalm : call.Calm w out)
    (hgas : ∀ p ∈ out :: call.operands, (w.heap p).nvalues ≤ w.gas) :
    Returned w out call (call.run mask out w) := by
  have hK : Kept (Reach (T := T)) := fun m m' o h e => .call o h e
  have h0 : Scene Reach w out w := Scene.init hout.inv hout
  have hS := hmask.sound
  have triv : ∀ c : OpCall T, ¬ (c.InPlace out ∧ (w.heap out).kind = .svec) → ∀ m : Mat T, Reach m → Reach m :=
    fun _ _ _ h => h
  have hI : ∀ p ∈ call.operands, (w.heap p).Inv := fun p hp => (hops p hp).inv
  have hg : ∀ p ∈ call.operands, (w.heap p).nvalues ≤ w.gas := fun p hp => hgas p (List.mem_cons_of_mem _ hp)
  have emul : ∀ s m : Ref, (w.heap s).Inv → (w.heap m).Inv → (w.heap s).nvalues ≤ w.gas → (w.heap m).nvalues ≤ w.gas →
      SameShape (w.heap s) (w.heap out) → SameShape (w.heap m) (w.heap out) →
      (s = out → m = out → (w.heap out).Fixed) → _ := fun s m a b c d e f g =>
    Safe.elementWiseMultiply (mask := mask) hK h0 a b e f hF hS c d g
  cases call with
  | mxm s m =>
    exact .of_scene (Safe.multiply hK h0 (hI s (by simp [OpCall.operands])) (hI m (by simp [OpCall.operands]))
      hshape.1 hshape.2.1 hshape.2.2 hF hS) (triv _)
  | mxv s m =>
    exact .of_scene (Safe.multiply hK h0 (hI s (by simp [OpCall.operands])) (hI m (by simp [OpCall.operands]))
      hshape.1 hshape.2.1 hshape.2.2 hF hS) (triv _)
  | vxm m s =>
    exact .of_scene (Safe.multiply hK h0 (hI s (by simp [OpCall.operands])) (hI m (by simp [OpCall.operands]))
      hshape.1 hshape.2.1 hshape.2.2 hF hS) (triv _)
  | add s m =>
    exact .of_scene (Safe.add hK h0 (hI s (by simp [OpCall.operands])) (hI m (by simp [OpCall.operands]))
      hshape.1 hshape.2 hF hS (hg s (by simp [OpCall.operands])) (hg m (by simp [OpCall.operands])) hcalm) (triv _)
  | subtract s m =>
    exact .of_scene (Safe.subtract hK h0 (hI s (by simp [OpCall.operands]))
      hshape.1 hshape.2 hF hS (hg s (by simp [OpCall.operands])) hcalm) (triv _)
  | eMulVector s m =>
    refine .of_scene ?_ (triv _)
    show ∃ a w', Ops.elementWiseVectorMultiply s m mask out w = .ok a w' ∧ _
    unfold Ops.elementWiseVectorMultiply
    rw [M.bind_ok (show M.rowsOf m w = .ok _ w from rfl), M.bind_ok (show M.rowsOf s w = .ok _ w from rfl)]
    simp only [hshape.1.1, hshape.2.1, ne_eq, not_true, if_false]
    exact emul s m (hI s (by simp [OpCall.operands])) (hI m (by simp [OpCall.operands]))
      (hg s (by simp [OpCall.operands])) (hg m (by simp [OpCall.operands])) hshape.1 hshape.2 hcalm
  | eMulMatrix s m =>
    refine .of_scene ?_ (triv _)
    show ∃ a w', Ops.elementWiseMatrixMultiply s m mask out w = .ok a w' ∧ _
    unfold Ops.elementWiseMatrixMultiply
    rw [M.bind_ok (show M.rowsOf m w = .ok _ w from rfl), M.bind_ok (show M.colsOf s w = .ok _ w from rfl)]
    simp only [hshape.2.2, ne_eq, not_true, if_false]
    exact emul s m (hI s (by simp [OpCall.operands])) (hI m (by simp [OpCall.operands]))
      (hg s (by simp [OpCall.operands])) (hg m (by simp [OpCall.operands])) hshape.1 hshape.2.1 hcalm
  | eAddVector s m =>
    refine .of_scene ?_ (triv _)
    show ∃ a w', Ops.elementWiseVectorAdd s m mask out w = .ok a w' ∧ _
    unfold Ops.elementWiseVectorAdd
    rw [M.bind_ok (show M.rowsOf m w = .ok _ w from rfl), M.bind_ok (show M.rowsOf s w = .ok _ w from rfl)]
    simp only [hshape.1.1, hshape.2.1, ne_eq, not_true, if_false]
    exact Safe.elementWiseAdd hK h0 (hI s (by simp [OpCall.operands])) (hI m (by simp [OpCall.operands]))
      hshape.1 hshape.2 hF hS (hg s (by simp [OpCall.operands])) (hg m (by simp [OpCall.operands]))
  | eAddMatrix s m =>
    refine .of_scene ?_ (triv _)
    show ∃ a w', Ops.elementWiseMatrixAdd s m mask out w = .ok a w' ∧ _
    unfold Ops.elementWiseMatrixAdd
    rw [M.bind_ok (show M.rowsOf m w = .ok _ w from rfl), M.bind_ok (show M.colsOf s w = .ok _ w from rfl)]
    simp only [hshape.2.2, ne_eq, not_true, if_false]
    exact Safe.elementWiseAdd hK h0 (hI s (by simp [OpCall.operands])) (hI m (by simp [OpCall.operands]))
      hshape.1 hshape.2.1 hF hS (hg s (by simp [OpCall.operands])) (hg m (by simp [OpCall.operands]))
  | transpose s =>
    refine .of_scene (R := Reach) ?_ (triv _)
    refine Safe.pre hF ?_
    exact Safe.crossLoop (g := id) hK h0 (hI s (by simp [OpCall.operands])) hshape.1 hshape.2.1 hF hS hshape.2.2
      (hg s (by simp [OpCall.operands])) hcalm
  | negative s =>
    refine .of_scene (R := fun m => (w.heap out).kind ≠ .svec → m.kind = (w.heap out).kind ∧ Reach m) ?_
      (fun hn m h => (h (fun hk => hn ⟨trivial, hk⟩)).2)
    refine Safe.pre hF ?_
    refine Safe.mapLoop (g := fun e v => if !e then -v else v) ?_ (Scene.init hout.inv (fun _ => ⟨rfl, hout⟩)) hF hS
      (hgas out (by simp)) ?_ (fun r c v => ?_)
    · intro m m' i j v h _ hset _ hsame hk
      refine ⟨hsame.1.trans (h hk).1, .call (.set i j v) (h hk).2 (hset (by rw [(h hk).1]; exact hk))⟩
    · intro b v hz
      rcases hcalm with (h | h) | h
      · rw [h]; trivial
      · rw [h]; trivial
      · unfold Mat.Storable
        split
        · trivial
        · trivial
        · rename_i h1 h2
          cases b with
          | true => exact hz ⟨h1, h2⟩
          | false => exact h v (hz ⟨h1, h2⟩)
    · congr 1
      funext e
      cases e <;> rfl
  | apply s u =>
    by_cases hso : s = out
    · subst hso
      refine .of_scene (R := fun m => (w.heap s).kind ≠ .svec → m.kind = (w.heap s).kind ∧ Reach m) ?_
        (fun hn m h => (h (fun hk => hn ⟨rfl, hk⟩)).2)
      refine Safe.pre hF ?_
      rw [if_pos rfl]
      refine Safe.mapLoop (g := fun e v => if e then u v else v) ?_ (Scene.init hout.inv (fun _ => ⟨rfl, hout⟩)) hF hS
        (hgas s (by simp)) ?_ (fun r c v => ?_)
      · intro m m' i j v h _ hset _ hsame hk
        refine ⟨hsame.1.trans (h hk).1, .call (.set i j v) (h hk).2 (hset (by rw [(h hk).1]; exact hk))⟩
      · intro b v hz
        rcases hcalm rfl with (h | h) | h
        · rw [h]; trivial
        · rw [h]; trivial
        · unfold Mat.Storable
          split
          · trivial
          · trivial
          · rename_i h1 h2
            cases b with
            | true => exact h v (hz ⟨h1, h2⟩)
            | false => exact hz ⟨h1, h2⟩
      · congr 1
        funext e
        cases e <;> rfl
    · have hc := hshape.resolve_left hso
      refine .of_scene (R := Reach) ?_ (triv _)
      refine Safe.pre hF ?_
      rw [if_neg hso]
      exact Safe.crossLoop (g := u) hK h0 (hI s (by simp [OpCall.operands])) hc.1 hc.2.1 hF hS hc.2.2
        (hg s (by simp [OpCall.operands])) (fun h => absurd h hso)

/-- C48 for the five formats: given an output of the right shape, on reachable operands, a calm call panics
exactly when its operands' shapes or the mask's do not fit, and then nothing has changed. -/
theorem C48_all_formats_partial (call : OpCall T) (hops : ∀ p ∈ call.operands, Reach (w.heap p)) (hout : Reach (w.heap out))
    (hmask : mask.Reached w) (hcalm : call.Calm w out) (hgas : ∀ p ∈ out :: call.operands, (w.heap p).nvalues ≤ w.gas)
    (hfit : call.Compatible w → call.Shapes w mask out) :
    ((call.run mask out w).isPanic = true ↔ ¬ (mask.Fits w out ∧ call.Compatible w)) ∧
    ((call.run mask out w).isPanic = true → call.run mask out w = .panic w) := by
  by_cases h : mask.Fits w out ∧ call.Compatible w
  · obtain ⟨w', e, -⟩ := C52_returns_partial call hops hout hmask h.1 (hfit h.2) hcalm hgas
    rw [e]
    exact ⟨⟨(fun h => by cases h), fun h' => absurd h h'⟩, fun h => by cases h⟩
  · have e : call.run mask out w = .panic w := by
      apply C48_rejected_writes_nothing
      intro h'
      apply h
      refine ⟨h'.1, ?_⟩
      cases call with
      | vxm s m => exact h'.2
      | _ => exact h'.2
    rw [e]
    exact ⟨⟨fun _ => h, fun _ => rfl⟩, fun _ => rfl⟩

/-- C48 for multiplication, in full: reachable operands and output of any format, with any aliasing between
them. Given an output of the product's shape, the call panics exactly when the inner dimensions or the
mask's shape do not fit, and then the state is as it was. -/
theorem C48_multiply {s m : Ref} (hs : Reach (w.heap s)) (hm : Reach (w.heap m)) (hout : Reach (w.heap out))
    (hmask : mask.Reached w) (h2 : (w.heap out).rows = (w.heap s).rows) (h3 : (w.heap out).cols = (w.heap m).cols) :
    ((Ops.matrixMatrixMultiply s m mask out w).isPanic = true ↔
      ¬ ((w.heap m).rows = (w.heap s).cols ∧ mask.Fits w out)) ∧
    ((Ops.matrixMatrixMultiply s m mask out w).isPanic = true → Ops.matrixMatrixMultiply s m mask out w = .panic w) := by
  by_cases h : (w.heap m).rows = (w.heap s).cols ∧ mask.Fits w out
  · obtain ⟨a, w', e, -⟩ := Safe.multiply (mask := mask) (R := Reach) (fun m m' o h e => .call o h e)
      (Scene.init hout.inv hout) hs.inv hm.inv h.1 h2 h3 h.2 hmask.sound
    rw [show Ops.matrixMatrixMultiply s m mask out w = _ from e]
    exact ⟨⟨(fun h => by cases h), fun h' => absurd h h'⟩, fun h => by cases h⟩
  · rw [show Ops.matrixMatrixMultiply s m mask out w = _ from Ops.multiply_panic h]
    exact ⟨⟨fun _ => h, fun _ => rfl⟩, fun _ => rfl⟩

/-! ## The methods -/

/-- A method call returned a new object satisfying `P`, every object that existed is as it was. -/
def Made (w : World T) (r : Res T Ref) (P : Mat T → Prop) : Prop :=
  ∃ p w', r = .ok p w' ∧ w.next ≤ p ∧ (∀ q, q < w.next → w'.heap q = w.heap q) ∧ P (w'.heap p)

theorem Made.of_scene {x : M T Ref} {y : M T Unit} {m : Mat T} {R P : Mat T → Prop}
    (hx : x { w with cancel := none } = (y >>= fun _ => pure w.next) (fresh w m))
    (hy : ∃ a w', y (fresh w m) = .ok a w' ∧ Scene R (fresh w m) w.next w')
    (hP : ∀ m', R m' → Mat.Same m' m → P m') : Made w (Meth.background x w) P := by
  obtain ⟨a, w', h1, h2⟩ := hy
  refine ⟨w.next, { w' with cancel := w.cancel }, ?_, Nat.le_refl _, fun q hq => ?_, ?_⟩
  · unfold Meth.background
    rw [hx, M.bind_ok h1]
    rfl
  · show w'.heap q = _
    rw [h2.others q (Nat.ne_of_lt hq), fresh_ne _ _ hq]
  · have hs := h2.same
    rw [fresh_next] at hs
    exact hP _ h2.good hs

theorem Reach.copy_ok {m : Mat T} (h : Reach m) : m.copy = .ok m := by
  cases m with
  | svec s => simp only [Mat.copy, SVec.copy_eq s h.weak.len, Out.ok_bind]
  | csr s => exact Mat.copy_ok (h.wf (by simp [Mat.kind]))
  | csc s => exact Mat.copy_ok (h.wf (by simp [Mat.kind]))
  | dense s => exact Mat.copy_ok (h.wf (by simp [Mat.kind]))
  | dvec s => exact Mat.copy_ok (h.wf (by simp [Mat.kind]))

theorem reach_copy {s : Ref} (h : Reach (w.heap s)) :
    M.copy s { w with cancel := none } = .ok w.next (fresh w (w.heap s)) := by
  unfold M.copy
  rw [M.bind_ok (M.ofObj_ok (w := { w with cancel := none }) (show (w.heap s).copy = .ok (w.heap s) from h.copy_ok))]
  rfl

variable {s m : Ref}

/-- C52 for `A.Multiply(B)` with a matrix receiver (any of the three matrix formats) and any reachable
operand of fitting shape: a new reachable matrix in the receiver's format. -/
theorem C52_multiply_method (hs : Reach (w.heap s)) (hm : Reach (w.heap m)) (hsn : s < w.next) (hmn : m < w.next)
    (hk : (w.heap s).kind ≠ .svec ∧ (w.heap s).kind ≠ .dvec) (h1 : (w.heap m).rows = (w.heap s).cols) :
    Made w (Meth.multiply s m w) (fun o => Reach o ∧ o.kind = (w.heap s).kind ∧
      o.rows = (w.heap s).rows ∧ o.cols = (w.heap m).cols) := by
  have ho : Reach (Meth.mulOut (w.heap s) (w.heap m)) ∧ (Meth.mulOut (w.heap s) (w.heap m)).kind = (w.heap s).kind ∧
      (Meth.mulOut (w.heap s) (w.heap m)).rows = (w.heap s).rows ∧
      (Meth.mulOut (w.heap s) (w.heap m)).cols = (w.heap m).cols := by
    cases h : w.heap s with
    | csr a => exact ⟨.newCSR _ _, rfl, rfl, rfl⟩
    | csc a => exact ⟨.newCSC _ _, rfl, rfl, rfl⟩
    | dense a => exact ⟨.newDense _ _, rfl, rfl, rfl⟩
    | dvec a => rw [h] at hk; exact absurd rfl hk.2
    | svec a => rw [h] at hk; exact absurd rfl hk.1
  obtain ⟨o1, o2, o3, o4⟩ := ho
  have es := fresh_ne w (Meth.mulOut (w.heap s) (w.heap m)) hsn
  have em := fresh_ne w (Meth.mulOut (w.heap s) (w.heap m)) hmn
  refine Made.of_scene (R := Reach) (m := Meth.mulOut (w.heap s) (w.heap m)) rfl
    (Safe.multiply (fun m m' o h e => .call o h e) (Scene.init (by rw [fresh_next]; exact o1.inv) (by rw [fresh_next]; exact o1))
      (by rw [es]; exact hs.inv) (by rw [em]; exact hm.inv) (by rw [es, em]; exact h1)
      (by rw [fresh_next, es]; exact o3) (by rw [fresh_next, em]; exact o4) trivial trivial) ?_
  intro m' hr hsame
  exact ⟨hr, hsame.1.trans o2, hsame.2.1.trans o3, hsame.2.2.trans o4⟩

/-- C52 for `A.Add(B)`. -/
theorem C52_add_method (hs : Reach (w.heap s)) (hm : Reach (w.heap m)) (hsn : s < w.next) (hmn : m < w.next)
    (h1 : SameShape (w.heap s) (w.heap m)) (hgs : (w.heap s).nvalues ≤ w.gas) (hgm : (w.heap m).nvalues ≤ w.gas) :
    Made w (Meth.add s m w) (fun o => Reach o ∧ Mat.Same o (w.heap s)) := by
  have es := fresh_ne w (w.heap s) hsn
  have em := fresh_ne w (w.heap s) hmn
  refine Made.of_scene (R := Reach) (m := w.heap s) (y := Ops.add s m .nil w.next) ?_
    (Safe.add (fun m m' o h e => .call o h e) (Scene.init (by rw [fresh_next]; exact hs.inv) (by rw [fresh_next]; exact hs))
      (by rw [es]; exact hs.inv) (by rw [em]; exact hm.inv) (by rw [es, em]; exact h1)
      (by rw [fresh_next, es]; exact ⟨rfl, rfl⟩) trivial trivial (by rw [es]; exact hgs) (by rw [em]; exact hgm)
      (fun h => absurd h (by rintro (h | h); exacts [Nat.ne_of_lt hsn h, Nat.ne_of_lt hmn h]))) (fun m' hr hsame => ⟨hr, hsame⟩)
  rw [M.bind_ok (reach_copy hs)]

/-- C52 for `A.Subtract(B)`. -/
theorem C52_subtract_method (hs : Reach (w.heap s)) (hm : Reach (w.heap m)) (hsn : s < w.next) (_hmn : m < w.next)
    (h1 : SameShape (w.heap s) (w.heap m)) (hgs : (w.heap s).nvalues ≤ w.gas) :
    Made w (Meth.subtract s m w) (fun o => Reach o ∧ SameShape o (w.heap s)) := by
  have key : ∀ o : Mat T, Reach o → SameShape o (w.heap s) → (∀ q, q < w.next → (fresh w o).heap q = w.heap q) →
      ∃ a w', Ops.subtract s m .nil w.next (fresh w o) = .ok a w' ∧ Scene Reach (fresh w o) w.next w' := by
    intro o h hsh e
    refine Safe.subtract (fun m m' o h e => .call o h e) (Scene.init (by rw [fresh_next]; exact h.inv) (by rw [fresh_next]; exact h))
      (by rw [e s hsn]; exact hs.inv) (by rw [e s hsn, e m _hmn]; exact h1)
      (by rw [e s hsn, fresh_next]; exact ⟨hsh.1.symm, hsh.2.symm⟩) trivial trivial (by rw [e s hsn]; exact hgs)
      (fun h => absurd h (Nat.ne_of_lt hsn))
  by_cases hk : (w.heap s).kind = .svec
  · refine Made.of_scene (R := Reach) (m := w.heap s) (y := Ops.subtract s m .nil w.next) ?_
      (key _ hs ⟨rfl, rfl⟩ (fun q hq => fresh_ne _ _ hq)) (fun m' hr hsame => ⟨hr, hsame.2⟩)
    refine M.bind_ok ?_
    obtain ⟨a, ha⟩ : ∃ a, w.heap s = .svec a := by cases h : w.heap s <;> rw [h] at hk <;> first | exact ⟨_, rfl⟩ | cases hk
    show (match w.heap s with | .svec _ => M.copy s { w with cancel := none } | _ => M.copy m { w with cancel := none }) = _
    rw [← reach_copy hs]
    rw [ha]
  · refine Made.of_scene (R := Reach) (m := w.heap m) (y := Ops.subtract s m .nil w.next) ?_
      (key _ hm ⟨h1.1.symm, h1.2.symm⟩ (fun q hq => fresh_ne _ _ hq))
      (fun m' hr hsame => ⟨hr, hsame.2.1.trans h1.1.symm, hsame.2.2.trans h1.2.symm⟩)
    refine M.bind_ok ?_
    show (match w.heap s with | .svec _ => M.copy s { w with cancel := none } | _ => M.copy m { w with cancel := none }) = _
    rw [← reach_copy hm]
    cases h : w.heap s <;> first | rfl | (rw [h] at hk; exact absurd rfl hk)

/-- C52 for `A.Transpose()`, every format. -/
theorem C52_transpose_method (hs : Reach (w.heap s)) (hsn : s < w.next) (hgs : (w.heap s).nvalues ≤ w.gas) :
    Made w (Meth.transpose s w) (fun o => Reach o ∧ o.rows = (w.heap s).cols ∧ o.cols = (w.heap s).rows) := by
  have ho : Reach (Meth.transOut (w.heap s)) ∧ (Meth.transOut (w.heap s)).rows = (w.heap s).cols ∧
      (Meth.transOut (w.heap s)).cols = (w.heap s).rows := by
    cases h : w.heap s with
    | csr a => exact ⟨.newCSR _ _, rfl, rfl⟩
    | csc a => exact ⟨.newCSC _ _, rfl, rfl⟩
    | dense a => exact ⟨.newDense _ _, rfl, rfl⟩
    | dvec a => exact ⟨.newDense _ _, rfl, rfl⟩
    | svec a => exact ⟨.newDense _ _, rfl, rfl⟩
  obtain ⟨o1, o2, o3⟩ := ho
  have es := fresh_ne w (Meth.transOut (w.heap s)) hsn
  refine Made.of_scene (R := Reach) (m := Meth.transOut (w.heap s)) (y := Ops.transpose s .nil w.next) rfl ?_
    (fun m' hr hsame => ⟨hr, hsame.2.1.trans o2, hsame.2.2.trans o3⟩)
  exact Safe.pre (mask := .nil) trivial (Safe.crossLoop (g := id) (mask := .nil) (fun m m' o h e => .call o h e)
    (Scene.init (by rw [fresh_next]; exact o1.inv) (by rw [fresh_next]; exact o1)) (by rw [es]; exact hs.inv)
    (by rw [fresh_next, es]; exact o2) (by rw [fresh_next, es]; exact o3) trivial trivial (Or.inl trivial)
    (by rw [es]; exact hgs) (fun h => absurd h (Nat.ne_of_lt hsn)))

/-- C52 for `Equal` and `NotEqual`, on any two reachable objects of any formats and shapes and with any
cancellation point: they return, opposite answers when not cancelled, and no object changes. -/
theorem C52_equal (hs : Reach (w.heap s)) (hm : Reach (w.heap m)) (hgs : (w.heap s).nvalues ≤ w.gas)
    (hgm : (w.heap m).nvalues ≤ w.gas) :
    ∃ b w', Ops.equal s m w = .ok b w' ∧ Ops.notEqual s m w = .ok (!b) w' ∧ w'.heap = w.heap := by
  obtain ⟨b, w', h1, h2⟩ := Safe.equal hs.inv hm.inv hgs hgm
  refine ⟨b, w', h1, ?_, h2⟩
  unfold Ops.notEqual
  rw [M.bind_ok h1]
  rfl

end

/-! ## Refutation and examples -/

/-- C52 and C48, full statement: false. Two reachable 1×2 CSR matrices; adding the second into the first
in place meets a zero sum, which removes the cell under the iterator: the call panics although every
shape fits, and the output has already lost a cell. -/
theorem C52_refuted : ∃ w : World ℚ, Reach (w.heap 0) ∧ Reach (w.heap 1) ∧ w.cancel = none ∧
    (OpCall.add 0 1).Shapes w .nil 0 ∧ (Ops.add 0 1 .nil 0 w).isPanic = true ∧
    (Ops.add 0 1 .nil 0 w).world.heap 0 ≠ w.heap 0 := by
  refine ⟨World.of 9 [.csr { r := 1, c := 2, values := [1, 2], cols := [0, 1], rowStart := [0, 2] },
    .csr { r := 1, c := 2, values := [-1, 5], cols := [0, 1], rowStart := [0, 2] }], ?_, ?_, rfl, ⟨⟨rfl, rfl⟩, rfl, rfl⟩, ?_, ?_⟩
  · exact Reach.arrCSR (data := [[1, 2]]) (c := 2) (by intro row hr; simp at hr; subst hr; rfl) (by kernel_rfl)
  · exact Reach.arrCSR (data := [[-1, 5]]) (c := 2) (by intro row hr; simp at hr; subst hr; rfl) (by kernel_rfl)
  · kernel_rfl
  · decide +kernel

/-- C48, full statement: false; the same call panics with operands, output and mask that fit. -/
theorem C48_refuted : ∃ w : World ℚ, Reach (w.heap 0) ∧ Reach (w.heap 1) ∧
    SameShape (w.heap 0) (w.heap 1) ∧ (Mask.nil).Fits w 0 ∧ (Ops.add 0 1 .nil 0 w).isPanic = true := by
  obtain ⟨w, h0, h1, -, hs, hp, -⟩ := C52_refuted
  exact ⟨w, h0, h1, hs.1, trivial, hp⟩

/-- A length-4 sparse vector after `SetVec(3, 5)` and `SetVec(3, 6)`: position 3 is stored twice
(sparseVector.go:191). -/
def svDup : SVec ℤ := { l := 4, values := [5, 6], indices := [3, 3] }

theorem svDup_reach : Reach (.svec svDup) :=
  .call (.set 3 0 6) (.call (.set 3 0 5) (.newSVec 4) (show _ = Out.ok (.svec { l := 4, values := [5], indices := [3] }) by kernel_rfl))
    (by kernel_rfl)

/-- Multiplying a matrix by that vector into another sparse vector, cancelled or not: the hypotheses of
`C52_returns_partial` are met by operands outside the theorems about well-formed objects. -/
example (c : Option Nat) : Returned { World.of (T := ℤ) 9 [.dense { r := 2, c := 4, data := [[1, 2, 3, 4], [5, 6, 7, 8]] },
      .svec svDup, .svec (SVec.new 2)] with cancel := c } 2 (.mxv 0 1)
    ((OpCall.mxv 0 1).run .nil 2 { World.of (T := ℤ) 9 [.dense { r := 2, c := 4, data := [[1, 2, 3, 4], [5, 6, 7, 8]] },
      .svec svDup, .svec (SVec.new 2)] with cancel := c }) := by
  refine C52_returns_partial _ ?_ (.newSVec 2) trivial trivial ⟨rfl, rfl, rfl⟩ trivial ?_
  · intro p hp
    simp only [OpCall.operands, List.mem_cons, List.not_mem_nil, or_false] at hp
    rcases hp with rfl | rfl
    · exact Reach.arrDense (data := [[1, 2, 3, 4], [5, 6, 7, 8]]) (c := 4)
        (by intro row hr; simp at hr; rcases hr with rfl | rfl <;> rfl) (by kernel_rfl)
    · exact svDup_reach
  · intro p hp
    simp only [OpCall.operands, List.mem_cons, List.not_mem_nil, or_false] at hp
    rcases hp with rfl | rfl | rfl <;> simp [World.of, Mat.nvalues, svDup, SVec.new, SVec.newL]

/-- What it computes. -/
example : (Ops.matrixVectorMultiply 0 1 .nil 2 (World.of (T := ℤ) 9 [.dense { r := 2, c := 4, data := [[1, 2, 3, 4], [5, 6, 7, 8]] },
      .svec svDup, .svec (SVec.new 2)])).left 2 = some (.svec { l := 2, values := [], indices := [] }) := by kernel_rfl

/-- `Subtract` of that vector from itself through the method, and `Transpose` of it. -/
example : (Meth.transpose 0 (World.of (T := ℤ) 9 [.svec svDup])).left 1 = some (.dense { r := 1, c := 4, data := [[0, 0, 0, 6]] }) := by
  kernel_rfl

end GB
