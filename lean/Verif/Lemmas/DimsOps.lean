import Verif.Lemmas.Dims
import Verif.SpecOps

/-!
# Every function of the packages is `Stable`
-/

namespace GB

set_option linter.unusedSectionVars false

variable {T : Type} [GoNum T] {α β : Type} {R : Mat T → Mat T → Prop}

namespace Stable

/-! ## operators.go -/

theorem dot (hR : Closed R) (rows column : Vec T) : ∀ n l sum, Stable R (Ops.dot rows column n l sum)
  | 0, _, _ => pure' hR _
  | n + 1, l, sum => by
    have ih := fun s => dot hR rows column n (l + 1) s
    unfold Ops.dot
    refine bind hR (poll hR) fun _ => ite (pure' hR _) (bind hR (lift hR _) fun _ => bind hR (lift hR _) fun _ => ih _)

theorem multiply (hR : Closed R) (s m : Ref) (mask : Mask) (out : Ref) : Stable R (Ops.multiply s m mask out) := by
  have hc := fun (mask : Mask) p => check hR mask p
  have hd := fun rows column n l sum => dot hR rows column n l sum
  unfold Ops.multiply
  stable hR
  all_goals first | exact hc _ _ | exact hd _ _ _ _ _

theorem eMulTarget (hR : Closed R) (source matrix : Ref) (mask : Mask) (r c : Nat) (v : T) :
    Stable R (Ops.eMulTarget source matrix mask r c v) := by
  unfold Ops.eMulTarget
  stable hR

theorem eMulSetSource (hR : Closed R) (source : Ref) (mask : Mask) (r c : Nat) (v : T) :
    Stable R (Ops.eMulSetSource source mask r c v) := by
  unfold Ops.eMulSetSource
  stable hR

theorem elementWiseMultiply (hR : Closed R) (s m : Ref) (mask : Mask) (out : Ref) :
    Stable R (Ops.elementWiseMultiply s m mask out) := by
  unfold Ops.elementWiseMultiply
  stable hR
  all_goals first | exact check hR _ _ | exact eMulTarget hR _ _ _ _ _ _ | exact eMulSetSource hR _ _ _ _ _

theorem elementWiseMatrixMultiply (hR : Closed R) (s m : Ref) (mask : Mask) (out : Ref) :
    Stable R (Ops.elementWiseMatrixMultiply s m mask out) := by
  have h := elementWiseMultiply hR s m mask out
  unfold Ops.elementWiseMatrixMultiply
  stable hR

theorem elementWiseVectorMultiply (hR : Closed R) (s m : Ref) (mask : Mask) (out : Ref) :
    Stable R (Ops.elementWiseVectorMultiply s m mask out) := by
  have h := elementWiseMultiply hR s m mask out
  unfold Ops.elementWiseVectorMultiply
  stable hR

theorem add (hR : Closed R) (s m : Ref) (mask : Mask) (out : Ref) : Stable R (Ops.add s m mask out) := by
  unfold Ops.add
  stable hR
  all_goals exact check hR _ _

theorem eAddLoop (hR : Closed R) (src : Ref) (mask : Mask) (out : Ref) : Stable R (Ops.eAddLoop src mask out) := by
  unfold Ops.eAddLoop
  stable hR

theorem elementWiseAdd (hR : Closed R) (s m : Ref) (mask : Mask) (out : Ref) :
    Stable R (Ops.elementWiseAdd s m mask out) := by
  unfold Ops.elementWiseAdd
  stable hR
  all_goals first | exact check hR _ _ | exact eAddLoop hR _ _ _

theorem elementWiseMatrixAdd (hR : Closed R) (s m : Ref) (mask : Mask) (out : Ref) :
    Stable R (Ops.elementWiseMatrixAdd s m mask out) := by
  have h := elementWiseAdd hR s m mask out
  unfold Ops.elementWiseMatrixAdd
  stable hR

theorem elementWiseVectorAdd (hR : Closed R) (s m : Ref) (mask : Mask) (out : Ref) :
    Stable R (Ops.elementWiseVectorAdd s m mask out) := by
  have h := elementWiseAdd hR s m mask out
  unfold Ops.elementWiseVectorAdd
  stable hR

theorem subtract (hR : Closed R) (s m : Ref) (mask : Mask) (out : Ref) : Stable R (Ops.subtract s m mask out) := by
  unfold Ops.subtract
  stable hR
  all_goals exact check hR _ _

theorem apply (hR : Closed R) (s : Ref) (mask : Mask) (u : T → T) (out : Ref) : Stable R (Ops.apply s mask u out) := by
  unfold Ops.apply
  stable hR
  all_goals exact check hR _ _

theorem negative (hR : Closed R) (s : Ref) (mask : Mask) (out : Ref) : Stable R (Ops.negative s mask out) := by
  unfold Ops.negative
  stable hR
  all_goals exact check hR _ _

theorem transpose (hR : Closed R) (s : Ref) (mask : Mask) (out : Ref) : Stable R (Ops.transpose s mask out) := by
  unfold Ops.transpose
  stable hR
  all_goals exact check hR _ _

theorem transposeToCSR (hR : Closed R) (s : Ref) : Stable R (Ops.transposeToCSR (T := T) s) := by
  unfold Ops.transposeToCSR
  stable hR
  all_goals exact transpose hR _ _ _

theorem transposeToCSC (hR : Closed R) (s : Ref) : Stable R (Ops.transposeToCSC (T := T) s) := by
  unfold Ops.transposeToCSC
  stable hR
  all_goals exact transpose hR _ _ _

theorem equal (hR : Closed R) (s m : Ref) : Stable R (Ops.equal (T := T) s m) := by
  unfold Ops.equal
  stable hR

theorem notEqual (hR : Closed R) (s m : Ref) : Stable R (Ops.notEqual (T := T) s m) := by
  have h := equal hR s m
  unfold Ops.notEqual
  stable hR

theorem scalar (hR : Closed R) (s : Ref) (a : T) : Stable R (Ops.scalar s a) := by
  unfold Ops.scalar
  stable hR

theorem opCall (hR : Closed R) (mask : Mask) (out : Ref) (op : OpCall T) : Stable R (op.run mask out) := by
  cases op with
  | mxm s m => exact multiply hR s m mask out
  | mxv s m => exact multiply hR s m mask out
  | vxm s m => exact multiply hR m s mask out
  | add s m => exact add hR s m mask out
  | subtract s m => exact subtract hR s m mask out
  | eMulMatrix s m => exact elementWiseMatrixMultiply hR s m mask out
  | eMulVector s m => exact elementWiseVectorMultiply hR s m mask out
  | eAddMatrix s m => exact elementWiseMatrixAdd hR s m mask out
  | eAddVector s m => exact elementWiseVectorAdd hR s m mask out
  | apply s u => exact apply hR s mask u out
  | negative s => exact negative hR s mask out
  | transpose s => exact transpose hR s mask out

/-! ## Reductions -/

theorem loopScript (hR : Closed R) (p : Ref) (mask : Mask) : ∀ g it acc, Stable R (Ops.loopScript (T := T) p mask g it acc)
  | 0, _, _ => by unfold Ops.loopScript; exact ite (hang hR) (pure' hR _)
  | g + 1, it, acc => by
    have ih := fun it acc => loopScript hR p mask g it acc
    unfold Ops.loopScript
    exact ite (bind hR (poll hR) fun _ => ite (pure' hR _) (bind hR (ofObj hR _ _) fun _ =>
      bind hR (element hR _ _ _) fun _ => ih _ _)) (pure' hR _)

theorem reduceScript (hR : Closed R) (s : Ref) (mask : Mask) : Stable R (Ops.reduceScript (T := T) s mask) := by
  have h : ∀ mask it, Stable R (Ops.runScript (T := T) s mask it) := fun mask it =>
    ⟨fun w => (loopScript hR s mask w.gas it []).out w⟩
  unfold Ops.reduceScript
  stable hR
  all_goals first | exact check hR _ _ | exact h _ _

theorem reduceScalar (hR : Closed R) (s : Ref) (o : MonoID T) (mask : Mask) : Stable R (Ops.reduceScalar s o mask) := by
  have h := reduceScript hR s mask
  unfold Ops.reduceScalar
  stable hR

theorem setVec (hR : Closed R) (p : Ref) (i : Nat) (v : T) : Stable R (Ops.setVec p i v) := by
  refine withObj hR p fun m => ?_
  cases m with
  | dvec s => exact .bind (hR.setVec s i v) fun _ h => .ok h
  | _ => exact .panic

theorem reduceVector (hR : Closed R) (s : Ref) (o : MonoID T) (mask : Mask) : Stable R (Ops.reduceVector s o mask) := by
  unfold Ops.reduceVector
  stable hR
  all_goals first | exact reduceScalar hR _ _ _ | exact setVec hR _ _ _

/-! ## Methods -/

theorem mScalar (hR : Closed R) (s : Ref) (a : T) : Stable R (Meth.scalar s a) := background (scalar hR s a)

theorem mMultiply (hR : Closed R) (s m : Ref) : Stable R (Meth.multiply (T := T) s m) :=
  background (bind hR ⟨fun w => (alloc hR _).out w⟩ fun _ => bind hR (multiply hR _ _ _ _) fun _ => pure' hR _)

theorem mAdd (hR : Closed R) (s m : Ref) : Stable R (Meth.add (T := T) s m) :=
  background (bind hR (copy hR _) fun _ => bind hR (add hR _ _ _ _) fun _ => pure' hR _)

theorem mSubtract (hR : Closed R) (s m : Ref) : Stable R (Meth.subtract (T := T) s m) := by
  refine background (bind hR ⟨fun w => ?_⟩ fun _ => bind hR (subtract hR _ _ _ _) fun _ => pure' hR _)
  split
  · exact (copy hR s).out w
  · exact (copy hR m).out w

theorem mNegative (hR : Closed R) (s : Ref) : Stable R (Meth.negative (T := T) s) :=
  background (bind hR (copy hR _) fun _ => bind hR (negative hR _ _ _) fun _ => pure' hR _)

theorem mTranspose (hR : Closed R) (s : Ref) : Stable R (Meth.transpose (T := T) s) :=
  background (bind hR ⟨fun w => (alloc hR _).out w⟩ fun _ => bind hR (transpose hR _ _ _) fun _ => pure' hR _)

theorem mEqual (hR : Closed R) (s m : Ref) : Stable R (Meth.equal (T := T) s m) := background (equal hR s m)
theorem mNotEqual (hR : Closed R) (s m : Ref) : Stable R (Meth.notEqual (T := T) s m) := background (notEqual hR s m)

/-! ## The other packages -/

theorem turns (hR : Closed R) (a visited result : Ref) (c : List (Mat T) → Bool) :
    ∀ n frontier tr, Stable R (BFS.turns a visited result c n frontier tr)
  | 0, _, _ => pure' hR _
  | n + 1, frontier, tr => by
    have ih := fun f tr => turns hR a visited result c n f tr
    unfold BFS.turns
    stable hR
    all_goals first | exact multiply hR _ _ _ _ | exact elementWiseVectorAdd hR _ _ _ _ | exact ih _ _

theorem search (hR : Closed R) (a : Ref) (s : Int) (c : List (Mat T) → Bool) : Stable R (BFS.search a s c) := by
  unfold BFS.search
  stable hR
  all_goals exact turns hR _ _ _ _ _ _ _

theorem symmetric (hR : Closed R) (s : Ref) : Stable R (MathPkg.symmetric (T := T) s) := by
  unfold MathPkg.symmetric
  stable hR
  all_goals first | exact mTranspose hR _ | exact mEqual hR _ _

theorem skewSymmetric (hR : Closed R) (s : Ref) : Stable R (MathPkg.skewSymmetric (T := T) s) := by
  unfold MathPkg.skewSymmetric
  stable hR
  all_goals first | exact mTranspose hR _ | exact mEqual hR _ _ | exact mNegative hR _

end Stable

/-! ### math/reduced: every step on the copy -/

namespace Reduced

theorem pivot_post (hR : Closed R) (rc cc r : Nat) : ∀ gas i lead (m : Mat T),
    (pivot rc cc r gas i lead m).Post (fun x => R m x.2)
  | 0, _, _, _ => .hang
  | gas + 1, i, lead, m => by
    unfold pivot
    refine .bind (hR.at' m i lead) fun x hx => .ite (.ite (.ite (.ok hx) ?_) ?_) (.ok hx)
    · exact (pivot_post hR rc cc r gas _ _ x.2).mono fun _ h => hR.trans hx h
    · exact (pivot_post hR rc cc r gas _ _ x.2).mono fun _ h => hR.trans hx h

theorem setRow_post (hR : Closed R) (r : Nat) (v : List T) (m : Mat T) : (setRow r v m).Post (R m) :=
  .loop (I := R m) (fun _ s hs => .next fun _ => (hR.set s _ _ _).mono fun _ h => hR.trans hs h) _ _ _ (hR.refl m)

theorem swapRows_post (hR : Closed R) (i r : Nat) (m : Mat T) : (swapRows i r m).Post (R m) :=
  .ite (.next fun _ => .next fun _ => .bind (setRow_post hR _ _ m) fun _ h =>
    (setRow_post hR _ _ _).mono fun _ h' => hR.trans h h') (.ok (hR.refl m))

theorem scaleCells_post (hR : Closed R) (r : Nat) (f : T) (v : List T) (m : Mat T) : (scaleCells r f v m).Post (R m) :=
  .loop (I := R m) (fun _ s hs => .next fun _ => (hR.set s _ _ _).mono fun _ h => hR.trans hs h) _ _ _ (hR.refl m)

theorem scaleRow_post (hR : Closed R) (r lead : Nat) (m : Mat T) : (scaleRow r lead m).Post (R m) := by
  unfold scaleRow
  refine .bind (hR.at' m r lead) fun x hx => ?_
  dsimp only
  split
  · exact .next fun _ => .next fun _ => (scaleCells_post hR _ _ _ _).mono fun _ h => hR.trans hx h
  · exact .next fun _ => .next fun _ => (scaleCells_post hR _ _ _ _).mono fun _ h => hR.trans hx h

theorem eliminate_post (hR : Closed R) (rc r lead : Nat) (m : Mat T) : (eliminate rc r lead m).Post (R m) :=
  .loop (I := R m) (fun _ s hs => .ite (.bind (hR.at' s _ _) fun _ hx => .next fun _ =>
    .loop (I := R m) (fun _ s hs => .next fun _ => (hR.update s _ _ _).mono fun _ h => hR.trans hs h) _ _ _
      (hR.trans hs hx)) (.ok hs)) _ _ _ (hR.refl m)

theorem rows_post (hR : Closed R) (rc cc gas : Nat) : ∀ n r lead (m : Mat T), (rows rc cc gas n r lead m).Post (R m)
  | 0, _, _, m => .ok (hR.refl m)
  | n + 1, r, lead, m => by
    unfold rows
    refine .ite (.ok (hR.refl m)) (.bind (pivot_post hR rc cc r gas r lead m) fun x hx => ?_)
    obtain ⟨p, m1⟩ := x
    cases p with
    | none => exact .ok hx
    | some q =>
      refine .bind (swapRows_post hR _ _ _) fun _ h1 => ?_
      refine .bind (scaleRow_post hR _ _ _) fun _ h2 => ?_
      refine .bind (eliminate_post hR _ _ _ _) fun _ h3 => ?_
      exact (rows_post hR rc cc gas n _ _ _).mono fun _ h4 => hR.trans hx (hR.trans h1 (hR.trans h2 (hR.trans h3 h4)))

end Reduced

namespace Stable

theorem reduced (hR : Closed R) (gas : Nat) (s : Ref) : Stable R (Reduced.reduced (T := T) gas s) :=
  bind hR (copy hR s) fun m => bind hR
    (withObj hR m fun a => .bind (Reduced.rows_post hR _ _ _ _ _ _ a) fun _ h => .ok h) fun _ => pure' hR _

/-! ### math/strassen: the sequential pieces -/

theorem copyCell (hR : Closed R) (dst : Ref) (r c : Nat) (src : Ref) (i j : Nat) :
    Stable R (Strassen.copyCell (T := T) dst r c src i j) := bind hR (at' hR _ _ _) fun _ => set hR _ _ _ _

theorem leaf (hR : Closed R) (a b : Ref) : Stable R (Strassen.leaf (T := T) a b) := by
  unfold Strassen.leaf Strassen.newDense
  stable hR
  all_goals exact multiply hR _ _ _ _

theorem split' (hR : Closed R) (a b : Ref) : Stable R (Strassen.split (T := T) a b) := by
  unfold Strassen.split Strassen.newDense Strassen.splitCell
  stable hR
  all_goals exact copyCell hR _ _ _ _ _ _

theorem operands (hR : Closed R) (k : Strassen.Blocks) : Stable R (Strassen.operands (T := T) k) := by
  unfold Strassen.operands
  stable hR
  all_goals first | exact mAdd hR _ _ | exact mSubtract hR _ _

theorem join (hR : Closed R) (a b c d : Ref) : Stable R (Strassen.join (T := T) a b c d) := by
  unfold Strassen.join Strassen.newDense Strassen.joinCell
  stable hR
  all_goals exact copyCell hR _ _ _ _ _ _

theorem assemble (hR : Closed R) (m1 m2 m3 m4 m5 m6 m7 : Ref) :
    Stable R (Strassen.assemble (T := T) m1 m2 m3 m4 m5 m6 m7) := by
  unfold Strassen.assemble
  stable hR
  all_goals first | exact mAdd hR _ _ | exact mSubtract hR _ _ | exact join hR _ _ _ _

/-! ### Runes -/

section rune
variable {R : Mat Rune → Mat Rune → Prop}

theorem stringLoop (hR : Closed R) (p : Ref) : ∀ g it b, Stable R (Runes.stringLoop p g it b)
  | 0, _, _ => by unfold Runes.stringLoop; exact ite (hang hR) (pure' hR _)
  | g + 1, it, b => by
    have ih := fun it b => stringLoop hR p g it b
    unfold Runes.stringLoop
    exact ite (bind hR (poll hR) fun _ => ite (pure' hR _) (bind hR (ofObj hR _ _) fun _ => ih _ _)) (pure' hR _)

theorem string (hR : Closed R) (s : Ref) : Stable R (Runes.string s) :=
  bind hR (ofObj hR _ _) fun _ => ite (fail hR) (bind hR (iterOf hR _) fun _ =>
    ⟨fun w => (stringLoop hR s w.gas _ _).out w⟩)

theorem less (hR : Closed R) (s m : Ref) : Stable R (Runes.less s m) :=
  bind hR (string hR _) fun _ => bind hR (string hR _) fun _ => pure' hR _
theorem greater (hR : Closed R) (s m : Ref) : Stable R (Runes.greater s m) :=
  bind hR (string hR _) fun _ => bind hR (string hR _) fun _ => pure' hR _

theorem compare (hR : Closed R) (s m : Ref) : Stable R (Runes.compare s m) := by
  unfold Runes.compare
  stable hR
  all_goals first | exact mEqual hR _ _ | exact less hR _ _

theorem eachLoop (hR : Closed R) (p : Ref) {body : Nat → Rune → M Rune Unit} (hb : ∀ c v, Stable R (body c v)) :
    ∀ g it, Stable R (Runes.eachLoop p body g it)
  | 0, _ => by unfold Runes.eachLoop; exact ite (hang hR) (pure' hR _)
  | g + 1, it => by
    have ih := fun it => eachLoop hR p hb g it
    unfold Runes.eachLoop
    exact ite (bind hR (ofObj hR _ _) fun _ => bind hR (hb _ _) fun _ => ih _) (pure' hR _)

theorem each (hR : Closed R) (p : Ref) {body : Nat → Rune → M Rune Unit} (hb : ∀ c v, Stable R (body c v)) :
    Stable R (Runes.each p body) :=
  bind hR (iterOf hR _) fun _ => ⟨fun w => (eachLoop hR p hb w.gas _).out w⟩

theorem exchange (hR : Closed R) (result : Ref) (line : Mat Rune → Int → Out (Vec Rune))
    {put : Nat → Nat → Rune → M Rune Unit} (hp : ∀ k c v, Stable R (put k c v)) (j i : Nat) :
    Stable R (Runes.exchange result line put j i) := by
  unfold Runes.exchange
  stable hR
  all_goals first | exact compare hR _ _ | exact each hR _ fun _ _ => hp _ _ _

theorem sortLines (hR : Closed R) (n : Nat) {body : Nat → Nat → M Rune Unit} (hb : ∀ j i, Stable R (body j i)) :
    Stable R (Runes.sortLines n body) := by
  unfold Runes.sortLines
  stable hR
  all_goals exact hb _ _

theorem bubbleRow (hR : Closed R) (a : Ref) : Stable R (Runes.bubbleRow a) := by
  unfold Runes.bubbleRow
  stable hR
  all_goals exact sortLines hR _ fun _ _ => exchange hR _ _ (fun _ _ _ => set hR _ _ _ _) _ _

theorem bubbleColumns (hR : Closed R) (a : Ref) : Stable R (Runes.bubbleColumns a) := by
  unfold Runes.bubbleColumns
  stable hR
  all_goals exact sortLines hR _ fun _ _ => exchange hR _ _ (fun _ _ _ => set hR _ _ _ _) _ _

end rune
end Stable
end GB
