import Verif.Lemmas.DimsConc
import Verif.Props.Mutex

/-!
# C85: the dimensions and the concrete type of an object never change
-/

namespace GB

set_option linter.unusedSectionVars false

variable {T : Type} [GoNum T] {α : Type}

/-! ## Client programs -/

/-- The calls of the packages, and the programs made of them: every argument is arbitrary, the same object may be
given several times, and what is called next may depend on everything returned before. `ReSize` is not among them. -/
inductive Client : {α : Type} → M T α → Prop
  | pure {α : Type} (a : α) : Client (pure a : M T α)
  | bind {α β : Type} {x : M T α} {f : α → M T β} : Client x → (∀ a, Client (f a)) → Client (x >>= f)
  /-- a constructor, or an object of the caller's making -/
  | new (m : Mat T) : Client (M.alloc m)
  | copy (p : Ref) : Client (M.copy p)
  /-- methods that only read, `Enumerate` and `Next` included -/
  | read {α : Type} (p : Ref) (f : Mat T → Out α) : Client (M.ofObj p f)
  | at' (p : Ref) (r c : Int) : Client (M.withObj p (fun m => m.at' r c))
  | element (p : Ref) (r c : Int) : Client (M.withObj p (fun m => m.element r c))
  | set (p : Ref) (r c : Int) (v : T) : Client (M.withObj p (fun m => do let m' ← m.set r c v; .ok ((), m')))
  | update (p : Ref) (r c : Int) (f : T → T) :
      Client (M.withObj p (fun m => do let m' ← m.update r c f; .ok ((), m')))
  | clear (p : Ref) : Client (M.clear p)
  /-- `Map` of an iterator, in any state of the iterator -/
  | mapNext (p : Ref) (it : Mat.Iter) (f : Nat → Nat → T → T) : Client (M.withObj p (fun m => do
      let (it', r, c, v) ← m.step it
      let m' ← m.put it' (f r c v)
      .ok (it', m')))
  | op (mask : Mask) (out : Ref) (op : OpCall T) : Client (op.run mask out)
  | equal (s m : Ref) : Client (Ops.equal s m)
  | notEqual (s m : Ref) : Client (Ops.notEqual s m)
  | scalar (s : Ref) (a : T) : Client (Ops.scalar s a)
  | transposeToCSR (s : Ref) : Client (Ops.transposeToCSR s)
  | transposeToCSC (s : Ref) : Client (Ops.transposeToCSC s)
  | reduceScalar (s : Ref) (o : MonoID T) (mask : Mask) : Client (Ops.reduceScalar s o mask)
  | reduceVector (s : Ref) (o : MonoID T) (mask : Mask) : Client (Ops.reduceVector s o mask)
  | mScalar (s : Ref) (a : T) : Client (Meth.scalar s a)
  | mMultiply (s m : Ref) : Client (Meth.multiply s m)
  | mAdd (s m : Ref) : Client (Meth.add s m)
  | mSubtract (s m : Ref) : Client (Meth.subtract s m)
  | mNegative (s : Ref) : Client (Meth.negative s)
  | mTranspose (s : Ref) : Client (Meth.transpose s)
  | mEqual (s m : Ref) : Client (Meth.equal s m)
  | mNotEqual (s m : Ref) : Client (Meth.notEqual s m)
  | search (a : Ref) (s : Int) (c : List (Mat T) → Bool) : Client (BFS.search a s c)
  | symmetric (s : Ref) : Client (MathPkg.symmetric s)
  | skewSymmetric (s : Ref) : Client (MathPkg.skewSymmetric s)
  | reduced (gas : Nat) (s : Ref) : Client (Reduced.reduced gas s)

theorem Client.stable {R : Mat T → Mat T → Prop} (hR : Closed R) {x : M T α} (h : Client x) : Stable R x := by
  induction h with
  | pure a => exact .pure' hR a
  | bind _ _ h1 h2 => exact .bind hR h1 h2
  | new m => exact .alloc hR m
  | copy p => exact .copy hR p
  | read p f => exact .ofObj hR p f
  | at' p r c => exact .withObj hR p fun m => hR.at' m r c
  | element p r c => exact .withObj hR p fun m => hR.element m r c
  | set p r c v => exact .withObj hR p fun m => .bind (hR.set m r c v) fun _ h => .ok h
  | update p r c f => exact .withObj hR p fun m => .bind (hR.update m r c f) fun _ h => .ok h
  | clear p => exact .clear hR p
  | mapNext p it f => exact .withObj hR p fun m => .next fun _ => .bind (hR.put m _ _) fun _ h => .ok h
  | op mask out op => exact .opCall hR mask out op
  | equal s m => exact .equal hR s m
  | notEqual s m => exact .notEqual hR s m
  | scalar s a => exact .scalar hR s a
  | transposeToCSR s => exact .transposeToCSR hR s
  | transposeToCSC s => exact .transposeToCSC hR s
  | reduceScalar s o mask => exact .reduceScalar hR s o mask
  | reduceVector s o mask => exact .reduceVector hR s o mask
  | mScalar s a => exact .mScalar hR s a
  | mMultiply s m => exact .mMultiply hR s m
  | mAdd s m => exact .mAdd hR s m
  | mSubtract s m => exact .mSubtract hR s m
  | mNegative s => exact .mNegative hR s
  | mTranspose s => exact .mTranspose hR s
  | mEqual s m => exact .mEqual hR s m
  | mNotEqual s m => exact .mNotEqual hR s m
  | search a s c => exact .search hR a s c
  | symmetric s => exact .symmetric hR s
  | skewSymmetric s => exact .skewSymmetric hR s
  | reduced gas s => exact .reduced hR gas s

/-! ## What does not change -/

/-- `b` has the concrete type and the dimensions of `a`; if `a` is a dense matrix or vector that holds as many
elements as its dimensions say, so does `b`. -/
structure Unchanged (a b : Mat T) : Prop where
  kind : b.kind = a.kind
  rows : b.rows = a.rows
  cols : b.cols = a.cols
  size : b.size = a.size
  full : a.kind = .dense ∨ a.kind = .dvec → a.WF → b.WF

theorem Mat.Kept.unchanged {a b : Mat T} (h : Mat.Kept a b) : Unchanged a b := by
  cases a <;> cases b <;> simp only [Mat.Kept] at h
  · exact ⟨rfl, h.1, h.2, by simp [Mat.size, h.1, h.2], fun hk => by rcases hk with hk | hk <;> cases hk⟩
  · exact ⟨rfl, h.1, h.2, by simp [Mat.size, h.1, h.2], fun hk => by rcases hk with hk | hk <;> cases hk⟩
  · exact ⟨rfl, h.1, h.2.1, by simp [Mat.size, h.1, h.2.1], fun _ hw =>
      have := h.2.2 ⟨hw.1, hw.2⟩
      ⟨this.1, this.2⟩⟩
  · exact ⟨rfl, h.1, rfl, by simp [Mat.size, h.1], fun _ hw => h.2 hw⟩
  · exact ⟨rfl, h, rfl, by simp [Mat.size, h], fun hk => by rcases hk with hk | hk <;> cases hk⟩

/-- The type and the dimensions alone. -/
structure SameDims (a b : Mat T) : Prop where
  kind : b.kind = a.kind
  rows : b.rows = a.rows
  cols : b.cols = a.cols
  size : b.size = a.size

theorem Mat.ShapeKept.sameDims {a b : Mat T} (h : Mat.ShapeKept a b) : SameDims a b := by
  cases a <;> cases b <;> simp only [Mat.ShapeKept, Mat.Kept] at h
  · exact ⟨rfl, h.1, h.2, by simp [Mat.size, h.1, h.2]⟩
  · exact ⟨rfl, h.1, h.2, by simp [Mat.size, h.1, h.2]⟩
  · exact ⟨rfl, h.1, h.2, by simp [Mat.size, h.1, h.2]⟩
  · exact ⟨rfl, h.1, rfl, by simp [Mat.size, h.1]⟩
  · exact ⟨rfl, h, rfl, by simp [Mat.size, h]⟩

/-- **C85**: in every state whatsoever, however the program ends (it returns, panics, is cancelled, or still runs when
its iterations are used up), every object that existed before has the type and the dimensions it had, no object
disappears, and the registry is the same. -/
theorem C85_unchanged {x : M T α} (h : Client x) (w : World T) :
    w.next ≤ (x w).world.next ∧ (x w).world.reg = w.reg ∧
    ∀ p, p < w.next → Unchanged (w.heap p) ((x w).world.heap p) :=
  have H := (h.stable Mat.kept_closed).out w
  ⟨H.1, H.2.1, fun p hp => (H.2.2 p hp).unchanged⟩

/-- **C85** for the functions on runes: `String`, `Less`, `Greater`, `Compare`, `BubbleRow`, `BubbleColumns`. -/
theorem C85_runes (s m : Ref) (w : World Rune) (p : Ref) (hp : p < w.next) :
    Unchanged (w.heap p) ((Runes.string s w).world.heap p) ∧ Unchanged (w.heap p) ((Runes.less s m w).world.heap p) ∧
    Unchanged (w.heap p) ((Runes.greater s m w).world.heap p) ∧ Unchanged (w.heap p) ((Runes.compare s m w).world.heap p) ∧
    Unchanged (w.heap p) ((Runes.bubbleRow s w).world.heap p) ∧
    Unchanged (w.heap p) ((Runes.bubbleColumns s w).world.heap p) :=
  have k := Mat.kept_closed (T := Rune)
  ⟨(((Stable.string k s).out w).2.2 p hp).unchanged, (((Stable.less k s m).out w).2.2 p hp).unchanged,
    (((Stable.greater k s m).out w).2.2 p hp).unchanged, (((Stable.compare k s m).out w).2.2 p hp).unchanged,
    (((Stable.bubbleRow k s).out w).2.2 p hp).unchanged, (((Stable.bubbleColumns k s).out w).2.2 p hp).unchanged⟩

/-- **C85** while operators run at the same time: any number of goroutines, each in a call of an operator, with any
operands, masks and outputs in common, at every moment of every schedule. -/
theorem C85_concurrent {n : Nat} {gas : Nat} {reg : List String} {h : Ref → Mat T} {calls : Fin n → Call T} {k : Nat}
    {c : Conf T n} (he : Conf.Exec reg k (Conf.start gas h calls) c) (p : Ref) : Unchanged (h p) (c.heap p) :=
  ((he.keeps Mat.kept_closed (h0 := h) (fun p => Mat.kept_closed.refl _)
    (fun i => ⟨Prog.Keeps.steps Mat.kept_closed _ _ _ _, fun _ _ h => by cases h⟩)).1 p).unchanged

/-- **C85** for `MutexMatrix`: goroutines that call any methods, `Clear` and the `Map` of iterators included, whether
the calls are single accesses or split. At every moment the wrapped matrix has its type and dimensions, and `Rows`,
`Columns` and `Size`, which take no lock, have always answered with them. A dense vector keeps its elements too, and
a dense matrix does if `Clear` is a single access (otherwise it takes the rows away before it puts the new ones). -/
theorem C85_mutex {n gas : Nat} {body : Mutex.Method T → Mutex.Prog (Mat T) (Out (Mutex.Val T))}
    (hb : body = Mutex.Method.atomic gas ∨ body = Mutex.Method.fine gas) {s0 : Mat T}
    {calls : Fin n → List (Mutex.Method T)} {c : Mutex.Conf n (Mutex.Method T) (Mat T) (Out (Mutex.Val T))}
    (h : Mutex.Steps Mutex.Method.mode body (Mutex.Conf.init s0 calls) c) :
    SameDims s0 c.mat ∧ (body = Mutex.Method.atomic gas ∨ s0.kind ≠ .dense → Unchanged s0 c.mat) ∧
    ∀ (i : Fin n) (x : Out (Mutex.Val T)),
      ((.rows, x) ∈ (c.thr i).res → x = .ok (.nat s0.rows)) ∧
      ((.columns, x) ∈ (c.thr i).res → x = .ok (.nat s0.cols)) ∧
      ((.size, x) ∈ (c.thr i).res → x = .ok (.int s0.size)) := by
  have hk : ∀ m, Mutex.Prog.Keeps Mat.ShapeKept (body m) := by
    intro m
    rcases hb with rfl | rfl
    · exact Mutex.atomic_keeps Mat.shapeKept_closed gas m
    · exact Mutex.fine_keeps Mat.shapeKept_closed (fun _ _ h1 h2 => ⟨h1, h2⟩) (fun _ _ h1 h2 => ⟨h1, h2⟩)
        (fun _ _ h1 h2 => ⟨h1, h2⟩) (fun _ _ h => h) gas m
  have h0 : Mat.ShapeKept s0 s0 := Mat.shapeKept_closed.refl s0
  have htr : ∀ {a b c : Mat T}, Mat.ShapeKept a b → Mat.ShapeKept b c → Mat.ShapeKept a c := Mat.shapeKept_closed.trans
  have e : ∀ m : Mutex.Method T, m = .rows ∨ m = .columns ∨ m = .size → body m = Mutex.Method.atomic gas m := by
    intro m hm
    rcases hb with rfl | rfl
    · rfl
    · rcases hm with rfl | rfl | rfl <;> rfl
  have hs := (Mutex.Steps.keeps (R := Mat.ShapeKept) htr hk h h0 (fun _ => trivial)).1
  refine ⟨hs.sameDims, fun hu => ?_, fun i x => ⟨fun hx => ?_, fun hx => ?_, fun hx => ?_⟩⟩
  · rcases hu with rfl | hd
    · exact (Mutex.Steps.keeps (R := Mat.Kept) Mat.kept_closed.trans (Mutex.atomic_keeps Mat.kept_closed gas) h
        (Mat.kept_closed.refl s0) (fun _ => trivial)).1.unchanged
    · have : Mat.Kept s0 c.mat := by
        revert hs hd
        cases s0 <;> cases c.mat <;> intro hs hd <;> first | exact hs | exact absurd rfl hd
      exact this.unchanged
  · exact (Mutex.Steps.answers (R := Mat.ShapeKept) htr hk h0 h (v := .ok (.nat s0.rows)) (e .rows (.inl rfl))
      (fun s hs => by simp [Mutex.Method.alone, hs.sameDims.rows]) i).2 x hx
  · exact (Mutex.Steps.answers (R := Mat.ShapeKept) htr hk h0 h (v := .ok (.nat s0.cols)) (e .columns (.inr (.inl rfl)))
      (fun s hs => by simp [Mutex.Method.alone, hs.sameDims.cols]) i).2 x hx
  · exact (Mutex.Steps.answers (R := Mat.ShapeKept) htr hk h0 h (v := .ok (.int s0.size)) (e .size (.inr (.inr rfl)))
      (fun s hs => by simp [Mutex.Method.alone, hs.sameDims.size]) i).2 x hx

/-- **C85**: `ReSize` is the exception: it changes the length of the vector, and nothing else about its type and
columns. -/
theorem C85_resize (s : DVec T) (n k : Nat) (s' : DVec T) (h : s.reSize n = .ok (s', k)) :
    (Mat.dvec s').kind = (Mat.dvec s).kind ∧ (Mat.dvec s').cols = (Mat.dvec s).cols ∧ (Mat.dvec s').WF ∧
    (Mat.dvec s').rows = k := by
  unfold DVec.reSize at h
  split at h
  · cases h; exact ⟨rfl, rfl, rfl, rfl⟩
  · split at h
    · dsimp only at h
      split at h
      · cases h; exact ⟨rfl, rfl, rfl, rfl⟩
      · cases h
    · cases h; exact ⟨rfl, rfl, rfl, rfl⟩

/-- Without the exception C85 is false. -/
theorem C85_resize_needed : ∃ (s s' : DVec ℤ) (n k : Nat), s.reSize n = .ok (s', k) ∧
    ¬ Unchanged (Mat.dvec s) (Mat.dvec s') :=
  ⟨⟨1, [5]⟩, ⟨2, [5, 0]⟩, 2, 2, rfl, fun h => by have := h.rows; simp [Mat.rows] at this⟩

/-! ## Concrete cases -/

namespace DimsEx

/-- A CSR matrix that no constructor makes (its column indices are out of order), and two others. -/
def w0 : World ℤ := World.of 20
  [.csr { r := 2, c := 2, values := [1, 2], cols := [1, 0], rowStart := [0, 2, 2] },
   .dense ⟨2, 2, [[1, 2], [3, 4]]⟩, .dvec ⟨2, [1, 2]⟩]

/-- The program multiplies into its own operand, writes out of range and would then clear. -/
def prog : M ℤ Unit := do
  Ops.matrixMatrixMultiply 1 1 .nil 1
  M.withObj 1 (fun m => do let m' ← m.set 5 0 7; .ok ((), m'))
  M.clear 1

theorem prog_client : Client prog :=
  .bind (.op .nil 1 (.mxm 1 1)) fun _ => .bind (.set 1 5 0 7) fun _ => .clear 1

/-- It panics in the middle; the matrix has been written to and has its dimensions. -/
example : (match prog w0 with | .panic w => decide (w.heap 1 ≠ w0.heap 1) | _ => false) = true ∧
    ((prog w0).world.heap 1).rows = (w0.heap 1).rows :=
  ⟨by decide +kernel, ((C85_unchanged prog_client w0).2.2 1 (by decide)).rows⟩

/-- A call on the ill-formed matrix. -/
example : (((OpCall.add 0 1).run .nil 0 w0).world.heap 0).cols = (w0.heap 0).cols :=
  ((C85_unchanged (Client.op .nil 0 (.add 0 1)) w0).2.2 0 (by decide)).cols

/-- Two calls write to the object the other reads; whatever the schedule, the dimensions are there. -/
example {k : Nat} {c : Conf ℤ 2} (he : Conf.Exec w0.reg k (.start w0.gas w0.heap fun i : Fin 2 => match i with
      | 0 => ⟨.add 0 1, .nil, 1, none⟩
      | 1 => ⟨.transpose 1, .nil, 0, some 1⟩) c) : (c.heap 1).rows = 2 ∧ (c.heap 0).kind = .csr :=
  ⟨(C85_concurrent he 1).rows, (C85_concurrent he 0).kind⟩

/-- In the execution of `Props/Mutex.lean` in which `Columns` is called while another goroutine reads. -/
example : ∃ c, Mutex.run3 = some c ∧ ∀ x, (.columns, x) ∈ (c.thr 0).res → x = .ok (.nat 2) := by
  have hs : Mutex.run3.isSome = true := by decide +kernel
  obtain ⟨c, hc⟩ := Option.isSome_iff_exists.1 hs
  exact ⟨c, hc, fun x hx => ((C85_mutex (gas := 9) (.inr rfl) (Mutex.exec_steps .refl hc)).2.2 0 x).2.1 hx⟩

end DimsEx
end GB
