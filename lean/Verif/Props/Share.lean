import Verif.Lemmas.Share5

/-!
# C11 and C47: copies are independent; which constructors keep the caller's array
-/

namespace GB

open Share

variable {T : Type} [GoNum T]

/-! ## C11 -/

/-- At the start there are no objects, and they stand apart. -/
theorem C11_start (m : Mem T) : Apart m m.next [] := (Pool.nil m).apart

/-- C11, the heart: take objects that stand apart, and any program that creates objects (empty
ones and copies), calls methods on objects and assigns to elements of arrays below `N`. In memory
it ends exactly as it does when every object is a value of its own, and the objects still stand
apart. Backing arrays that grow in place, are reallocated, or are overwritten by `remove` never
leak from one object into another, whatever spare capacity the allocator hands out. -/
theorem C11_program {m : Mem T} {N : Nat} {os : List LMat} (h0 : Apart m N os) {as : List (Act T)} (hb : Below N as) :
    match runHigh (os.map fun o => o.view m) as with
    | .ok vs => ∃ os' m', runLow os as m = .ok os' m' ∧ os'.map (fun o => o.view m') = vs ∧ Apart m' N os' ∧
        ∀ a, a < N → m'.num a = poked a (m.num a) as ∧ m'.int a = m.int a ∧ m'.row a = m.row a
    | .panic => ∃ m', runLow os as m = .panic m'
    | .hang => ∃ m', runLow os as m = .hang m' := by
  have h := run_sim as h0.pool hb
  unfold Sim at h
  revert h
  rcases e : runLow os as m with ⟨os, m'⟩ | m' | m' <;> rcases runHigh _ as with vs | _ | _ <;> intro h
  all_goals first | exact h.elim | skip
  · exact ⟨_, m', rfl, h.1.1.view, h.1.1.apart, h.1.2⟩
  · exact ⟨m', rfl⟩
  · exact ⟨m', rfl⟩

/-- C11, standing apart lasts. -/
theorem C11_apart {m m' : Mem T} {N : Nat} {os os' : List LMat} (h0 : Apart m N os) {as : List (Act T)} (hb : Below N as)
    (h : runLow os as m = .ok os' m') : Apart m' N os' := by
  obtain ⟨vs, -, ⟨hp, -⟩, -⟩ := sim_ok (run_sim as h0.pool hb) h
  exact hp.apart

/-- C11, equal: `Copy` of a reachable object gives an object that holds the same (format,
dimensions, every stored entry), and changes no object. -/
theorem C11_copy [GoStore T] {m : Mem T} {N : Nat} {os : List LMat} (h0 : Apart m N os)
    {k : Nat} {o : LMat} (hk : os[k]? = some o) (hr : Reach (o.view m)) :
    ∃ os' m', runLow os [.copy k] m = .ok os' m' ∧
      os'.map (fun p => p.view m') = os.map (fun p => p.view m) ++ [o.view m] := by
  have hv : (os.map fun p => p.view m)[k]? = some (o.view m) := by rw [List.getElem?_map, hk]; rfl
  have hhigh : runHigh (os.map fun p => p.view m) [.copy k] = .ok ((os.map fun p => p.view m) ++ [o.view m]) :=
    runHigh_copy hv (copy_reach hr)
  have h2 := run_sim [.copy k] h0.pool (fun a i x hm => by simp at hm)
  rw [hhigh] at h2
  obtain ⟨os', m2, e2, ⟨hp2, -⟩, -⟩ := sim_ok' h2
  exact ⟨os', m2, e2, hp2.view⟩

/-- C11, independent: let any program run from there: calls on the object `k`, on its copies, on
any other object, in any interleaving. What the object `k` holds at the end is what its own calls
alone make of what it held before. So no write to a copy shows in the original, and none to the
original shows in a copy. -/
theorem C11_independent {m m' : Mem T} {N : Nat} {os os' : List LMat} (h0 : Apart m N os) {as : List (Act T)}
    (hb : Below N as) (h : runLow os as m = .ok os' m') {k : Nat} {o : LMat} (hk : os[k]? = some o) :
    ∃ o', os'[k]? = some o' ∧ runCalls (o.view m) (callsOn k as) = .ok (o'.view m') := by
  obtain ⟨vs', e, ⟨hp', -⟩, -⟩ := sim_ok (run_sim as h0.pool hb) h
  have hv : (os.map fun p => p.view m)[k]? = some (o.view m) := by rw [List.getElem?_map, hk]; rfl
  obtain ⟨v', h1, h2⟩ := runHigh_calls as hv e
  rw [← hp'.view, List.getElem?_map] at h1
  cases e3 : os'[k]? with
  | none => rw [e3] at h1; simp at h1
  | some o' => rw [e3] at h1; simp at h1; exact ⟨o', rfl, by rw [h1]; exact h2⟩

/-- C11, and no call fails because of another object's calls: if a program consists of calls on
existing objects, and every object's own calls run normally on what the object held, the
interleaving runs normally. -/
theorem C11_runs {m : Mem T} {N : Nat} {os : List LMat} (h0 : Apart m N os) {as : List (Act T)}
    (hc : ∀ b ∈ as, ∃ k f, b = .call k f ∧ k < os.length)
    (hr : ∀ (k : Nat) o, os[k]? = some o → ∃ v, runCalls (o.view m) (callsOn k as) = .ok v) :
    ∃ os' m', runLow os as m = .ok os' m' := by
  obtain ⟨vs', e⟩ := runHigh_runs as (os.map fun p => p.view m) (by simpa using hc) (by
    intro k v hv
    rw [List.getElem?_map] at hv
    cases e : os[k]? with
    | none => rw [e] at hv; simp at hv
    | some o => rw [e] at hv; simp at hv; subst hv; exact hr k o e)
  have h2 := run_sim as h0.pool (fun a i x hm => by obtain ⟨_, _, h, _⟩ := hc _ hm; cases h)
  rw [e] at h2
  obtain ⟨os', m2, e2, -⟩ := sim_ok' h2
  exact ⟨os', m2, e2⟩

/-- What a caller sees of an object is what it holds: `At` in memory answers as `At` does on the
object's contents. -/
theorem C11_at {m : Mem T} {N : Nat} {os : List LMat} (h0 : Apart m N os) {k : Nat} {o : LMat} (hk : os[k]? = some o)
    (i j : Int) (x : T) (v : Mat T) :
    (∃ o' m', o.at' i j m = .ok (x, o') m' ∧ o'.view m' = v) ↔ (o.view m).at' i j = .ok (x, v) := by
  have hs := LMat.at_sim (F := fun t a => o.Uses m t a ∨ m.next ≤ a) (fun _ _ e => Or.inr e)
    ((h0.good o (List.mem_of_getElem? hk)).own.mono fun _ _ e _ => Or.inl e) i j
  constructor
  · rintro ⟨o', m2, e, rfl⟩
    obtain ⟨⟨y, w⟩, e2, ⟨e3, e4⟩, -⟩ := sim_ok hs e
    have e3 : x = y := e3
    have e5 : o'.view m2 = w := e4.view
    rw [e2, e3, e5]
  · intro e
    rw [e] at hs
    obtain ⟨⟨y, o'⟩, m2, e2, ⟨e3, e4⟩, -⟩ := sim_ok' hs
    cases e3
    exact ⟨o', m2, e2, e4.view⟩

/-- Every object a program of `New…`, `Copy`, `Set`, `Update`, `Clear`, `At`, `Element` makes is
reachable, so `C11_copy` applies to it. -/
theorem C11_reach [GoStore T] {m m' : Mem T} {N : Nat} {os os' : List LMat} (h0 : Apart m N os) {as : List (Act T)}
    (hb : Below N as) (hp : Plain as) (h : runLow os as m = .ok os' m') (hr : ∀ o ∈ os, Reach (o.view m)) :
    ∀ o ∈ os', Reach (o.view m') := by
  obtain ⟨vs', e, ⟨hp', -⟩, -⟩ := sim_ok (run_sim as h0.pool hb) h
  have := runHigh_reach as _ hp e (by simpa using hr)
  rw [← hp'.view] at this
  simpa using this

/-! ### An instance -/

/-- An empty memory that grants two spare cells per growth. -/
def mem0 : Mem ℤ := { num := fun _ => [], int := fun _ => [], row := fun _ => [], next := 0, slack := fun _ => 2 }

/-- A 2 by 2 compressed matrix is written and copied. -/
def shareProg : List (Act ℤ) :=
  [.newCSR 2 2, .call 0 (.op (.set 0 1 5)), .call 0 (.op (.set 1 0 7)), .copy 0]

/-- Then both are written in turn, and the original is cleared. -/
def shareProg2 : List (Act ℤ) :=
  [.call 1 (.op (.set 0 0 9)), .call 0 (.op (.set 0 1 0)), .call 1 (.op (.set 1 1 4)), .call 0 (.op .clear)]

example : Below mem0.next (shareProg ++ shareProg2) ∧ Plain (shareProg ++ shareProg2) := by
  constructor
  · intro a i x h; simp [shareProg, shareProg2] at h
  · intro k f h; simp [shareProg, shareProg2] at h; aesop

example : after (runLow [] shareProg mem0) =
    some [.csr { r := 2, c := 2, values := [5, 7], cols := [1, 0], rowStart := [0, 1, 2] },
      .csr { r := 2, c := 2, values := [5, 7], cols := [1, 0], rowStart := [0, 1, 2] }] := by
  decide +kernel

example : after (runLow [] (shareProg ++ shareProg2) mem0) =
    some [.csr { r := 2, c := 2, values := [], cols := [], rowStart := [0, 0, 0] },
      .csr { r := 2, c := 2, values := [9, 5, 7, 4], cols := [0, 1, 0, 1], rowStart := [0, 2, 4] }] := by
  decide +kernel

/-! ## C47 -/

/-- C47 for `NewCSRMatrixFromArray(N)`: whatever the caller's array of rows (rows may overlap), if
the constructor returns, the matrix and the caller's arrays share nothing. -/
theorem C47_csr_partial {m m1 : Mem T} {data : Slice} {d : List (List T)} (h : Held m data d) {o : LCSR}
    (e : LCSR.fromArray data m = .ok o m1) : ∃ v, CSR.fromArray d = .ok v ∧ Separate m m1 (.csr o) (.csr v) := by
  obtain ⟨v, e1, h1, hk⟩ := sim_ok (LCSR.fromArray_sim h) e
  exact ⟨v, e1, separate_of (.csr h1) hk⟩

/-- C47 for `NewCSCMatrixFromArray(N)`. -/
theorem C47_csc_partial {m m1 : Mem T} {data : Slice} {d : List (List T)} (h : Held m data d) {o : LCSC}
    (e : LCSC.fromArray data m = .ok o m1) : ∃ v, CSC.fromArray d = .ok v ∧ Separate m m1 (.csc o) (.csc v) := by
  obtain ⟨v, e1, h1, hk⟩ := sim_ok (LCSC.fromArray_sim h) e
  exact ⟨v, e1, separate_of (.csc h1) hk⟩

/-- C47 for `NewSparseVectorFromArray(N)`. -/
theorem C47_svec_partial {m m1 : Mem T} {data : Slice} (h : data.Valid numF m) {o : LSVec}
    (e : LSVec.fromArray data m = .ok o m1) :
    ∃ v, SVec.fromArray (data.get numF m) = .ok v ∧ Separate m m1 (.svec o) (.svec v) := by
  obtain ⟨v, e1, h1, hk⟩ := sim_ok (LSVec.fromArray_sim h rfl) e
  exact ⟨v, e1, separate_of (.svec h1) hk⟩

/-- C47 is false of `NewDenseMatrixFromArray(N)`: the matrix is the caller's array. What it holds,
at any later time, is what the array holds then. -/
theorem C47_dense_shares {m m1 : Mem T} {data : Slice} {o : LDense} (e : LDense.fromArray data m = .ok o m1) :
    ∃ c, ∀ m' : Mem T, (LMat.dense o).view m' =
      .dense { r := data.len, c := c, data := (data.get rowF m').map (fun s => s.get numF m') } := by
  obtain ⟨h1, h2⟩ := LDense.fromArray_eq e
  exact ⟨o.c, fun m' => by simp [LMat.view, h1, h2]⟩

/-- C47 is false of `NewDenseVectorFromArray(N)`: likewise. -/
theorem C47_dvec_shares {m m1 : Mem T} {data : Slice} {o : LDVec} (e : LDVec.fromArray data m = .ok o m1)
    (m' : Mem T) : (LMat.dvec o).view m' = .dvec { l := data.len, values := data.get numF m' } := by
  obtain ⟨h1, h2⟩ := LDVec.fromArray_eq e
  simp [LMat.view, h1, h2]

/-! ### An instance, and the refutations -/

/-- The caller's `[][]int{{1, 2}, {3, 4}}`: rows at addresses 0 and 1, the array of rows at 2. -/
def mem1 : Mem ℤ :=
  { num := fun a => if a = 0 then [1, 2] else if a = 1 then [3, 4] else [], int := fun _ => [],
    row := fun a => if a = 2 then [⟨0, 0, 2⟩, ⟨1, 0, 2⟩] else [], next := 3, slack := fun _ => 0 }

theorem mem1_held : Held mem1 ⟨2, 0, 2⟩ [[1, 2], [3, 4]] := by
  refine ⟨⟨by decide, by decide⟩, ?_, rfl⟩
  intro s hs
  have hs : s ∈ [(⟨0, 0, 2⟩ : Slice), ⟨1, 0, 2⟩] := hs
  simp at hs
  rcases hs with rfl | rfl <;> exact ⟨by decide, by decide⟩

/-- Build from the caller's array, run a program on the new object, and look at the object and at
the caller's two rows. -/
def fromThen (x : H ℤ LMat) (as : List (Act ℤ)) : Option (List (Mat ℤ) × List ℤ × List ℤ) :=
  match x mem1 with
  | .ok o m =>
    match runLow [o] as m with
    | .ok os m' => some (os.map (fun o => o.view m'), m'.num 0, m'.num 1)
    | _ => none
  | _ => none

/-- A CSR matrix: the caller's write and the matrix's write do not meet. -/
example : fromThen (do let o ← LCSR.fromArray ⟨2, 0, 2⟩; pure (.csr o)) [.poke 0 0 9, .call 0 (.op (.set 1 1 8))] =
    some ([.csr { r := 2, c := 2, values := [1, 2, 3, 8], cols := [0, 1, 0, 1], rowStart := [0, 2, 4] }], [9, 2], [3, 4]) := by
  decide +kernel

/-- C47 refuted for `NewDenseMatrixFromArray`: `a := [][]int{{1, 2}, {3, 4}}; m :=
NewDenseMatrixFromArray(a); a[0][0] = 9; m.Set(1, 1, 8)`. Then `m.At(0, 0)` is 9 and `a[1][1]` is 8. -/
theorem C47_refuted_dense :
    Held mem1 ⟨2, 0, 2⟩ [[1, 2], [3, 4]] ∧
    fromThen (do let o ← LDense.fromArray ⟨2, 0, 2⟩; pure (.dense o)) [.poke 0 0 9, .call 0 (.op (.set 1 1 8))] =
      some ([.dense { r := 2, c := 2, data := [[9, 2], [3, 8]] }], [9, 2], [3, 8]) :=
  ⟨mem1_held, by decide +kernel⟩

/-- C47 refuted for `NewDenseVectorFromArray`: `a := []int{1, 2}; v := NewDenseVectorFromArray(a);
a[0] = 9; v.SetVec(1, 8)`. Then `v.AtVec(0)` is 9 and `a[1]` is 8. -/
theorem C47_refuted_dvec :
    Slice.Valid numF mem1 ⟨0, 0, 2⟩ ∧
    fromThen (do let o ← LDVec.fromArray ⟨0, 0, 2⟩; pure (.dvec o)) [.poke 0 0 9, .call 0 (.op (.set 1 0 8))] =
      some ([.dvec { l := 2, values := [9, 8] }], [9, 8], [3, 4]) :=
  ⟨⟨by decide, by decide⟩, by decide +kernel⟩

end GB
