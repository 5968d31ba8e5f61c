import Verif.Lemmas.Recover2
import Verif.Props.Share

/-!
# C104: a call that panics changes nothing, and a program may go on after it

On the level of backing arrays. The index check of every method comes before its first write, and
in a reachable state nothing after the check can panic; so when a method panics, memory is exactly
as it was, and a program that recovers works on as if the call had not been made.
-/

namespace GB

open Share

variable {T : Type} [GoNum T] [GoStore T]

/-- C104, one method: `Set`, `Update`, `At`, `Element`, `RowsAt`, `ColumnsAt` and `RowsAtToArray` of
a reachable object, at any indices (negative ones too). If the call panics, the memory after the
panic is the memory before the call: no array written, none allocated. -/
theorem C104_method {m m' : Mem T} {o : LMat} (hg : o.Good m) (hr : Reach (o.view m)) (i j : Int) (x : T) (f : T → T)
    (hp : o.set i j x m = .panic m' ∨ o.update i j f m = .panic m' ∨ (o.at' i j : H T (T × LMat)) m = .panic m' ∨
      (o.element i j : H T (Bool × LMat)) m = .panic m' ∨ (o.rowsAt i : H T LMat) m = .panic m' ∨
      (o.columnsAt j : H T LMat) m = .panic m' ∨ (o.rowsAtToArray i : H T Slice) m = .panic m') : m' = m := by
  have ho : o.Own m (fun t a => o.Uses m t a ∨ m.next ≤ a) (o.view m) := hg.own.mono fun _ _ e _ => .inl e
  have hF : ∀ (t : Tag) a, m.next ≤ a → (o.Uses m t a ∨ m.next ≤ a) := fun _ _ e => .inr e
  have key : ∀ {α β : Type} {x : H T α} {y : Out β} {F : Tag → Nat → Prop} {R : α → β → Mem T → Prop}, Sim m F x y R →
      ((∃ b, y = .ok b) ∨ x m = .panic m) → x m = .panic m' → m' = m := by
    intro α β x y F R hs hx hp
    rcases hx with ⟨b, rfl⟩ | e
    · obtain ⟨a, m1, e, -⟩ := sim_ok' hs
      rw [e] at hp; cases hp
    · rw [e] at hp; cases hp; rfl
  rcases hp with hp | hp | hp | hp | hp | hp | hp
  · exact key (LMat.set_sim hF ho i j x) (set_safe hr.inv ho i j x) hp
  · exact key (LMat.update_sim hF ho i j f) (update_safe hr.inv ho i j f) hp
  · exact key (LMat.at_sim hF ho i j) (at_safe hr.inv ho i j) hp
  · exact key (LMat.element_sim hF ho i j) (element_safe hr.inv ho i j) hp
  · exact key (LMat.rowsAt_sim ho i) (rowsAt_safe hr.inv ho i) hp
  · exact key (LMat.columnsAt_sim ho j) (columnsAt_safe hr.inv ho j) hp
  · exact key (LMat.rowsAtToArray_sim ho i) (rowArray_safe hr.inv ho i) hp

/-- C104, one action of a program that handles several objects (`New…`, `Copy`, the methods above,
`Clear`, `ReSize`): if it panics, the memory is as it was. -/
theorem C104_action {m m' : Mem T} {N : Nat} {os : List LMat} (h0 : Apart m N os) (hr : ∀ o ∈ os, Reach (o.view m))
    {a : Act T} (hb : Below N [a]) (ht : Tame [a]) (hp : a.low os m = .panic m') : m' = m := by
  rcases act_safe h0.pool (by simpa using hr) a ht with ⟨vs, e⟩ | e
  · have hs := act_sim h0.pool a hb
    rw [e] at hs
    obtain ⟨os1, m1, e1, -⟩ := sim_ok' hs
    rw [e1] at hp; cases hp
  · rw [e] at hp; cases hp; rfl

/-- C104, programs that recover: take reachable objects that stand apart and any program that
recovers from every panic and goes on with its next action. It runs to its end. Every object ends up
holding what it holds when the objects are values of their own and the calls that panic are left
out. The objects still stand apart and are still reachable, and the program's own arrays hold what
it assigned to them. -/
theorem C104_recover {m : Mem T} {N : Nat} {os : List LMat} (h0 : Apart m N os) (hr : ∀ o ∈ os, Reach (o.view m))
    {as : List (Act T)} (hb : Below N as) (ht : Tame as) :
    ∃ os' m', tryLow os as m = .ok os' m' ∧ tryHigh (os.map fun o => o.view m) as = .ok (os'.map fun o => o.view m') ∧
      Apart m' N os' ∧ (∀ o ∈ os', Reach (o.view m')) ∧
      ∀ a, a < N → m'.num a = poked a (m.num a) as ∧ m'.int a = m.int a ∧ m'.row a = m.row a := by
  obtain ⟨os', m', vs', h1, h2, h3, h4, h5⟩ := try_sim as h0.pool (by simpa using hr) hb ht
  refine ⟨os', m', h1, by rw [h3.view]; exact h2, h3.apart, ?_, h4⟩
  rw [← h3.view] at h5
  simpa using h5

/-- C104, an update function that panics: `Update(i, j, f)` on a reachable object asks `f` once, at
the value of the cell, before it writes anything. If `f` panics there, so does `Update`, and the
memory is as it was. If `f` answers `y`, `Update` does what it does with the function that always
answers `y`; what `f` would do elsewhere does not matter. Outside the table `f` is not asked. -/
theorem C104_callback {m : Mem T} {o : LMat} (hg : o.Good m) (hr : Reach (o.view m)) (f : T → Option T) :
    (∀ i j : Nat, i < (o.view m).rows → j < (o.view m).cols → ∃ x, (o.view m).at' i j = .ok (x, o.view m) ∧
      (f x = none → o.updateTry i j f m = .panic m) ∧
      ∀ y, f x = some y → o.updateTry i j f m = o.update i j (fun _ => y) m) ∧
    ∀ i j : Int, ¬ (0 ≤ i ∧ i < (o.view m).rows ∧ 0 ≤ j ∧ j < (o.view m).cols) → o.updateTry i j f m = .panic m := by
  constructor
  · intro i j hi hj
    have hx := hr.inv.at_ok hi hj
    have ht := LMat.tries hg.own (i := i) (j := j)
      ⟨inRange_iff.2 ⟨by omega, by exact_mod_cast hi⟩, inRange_iff.2 ⟨by omega, by exact_mod_cast hj⟩⟩ hx f
    exact ⟨_, hx, ht.2, ht.1⟩
  · intro i j hn
    refine tries_bad hg.own (fun h => hn ?_) f
    have h1 := inRange_iff.1 h.1
    have h2 := inRange_iff.1 h.2
    exact ⟨h1.1, h1.2, h2.1, h2.2⟩

/-! ### Instances -/

/-- A program that stumbles three times: a cell outside, a row outside, an object that is not there. -/
def stumble : List (Act ℤ) :=
  [.newCSR 2 2, .call 0 (.op (.set 0 1 5)), .call 0 (.op (.set 2 0 7)), .rowsAt 0 (-1), .copy 0, .call 7 (.op .clear),
    .call 1 (.op (.set 1 1 9)), .call 0 (.op (.update 0 5 (· + 1)))]

/-- Its hypotheses. -/
example : Below mem0.next stumble ∧ Tame stumble ∧ Apart mem0 mem0.next [] :=
  ⟨by intro a i x h; simp [stumble] at h, by intro k it x h; simp [stumble] at h, C11_start _⟩

/-- It runs to its end; the copy has the entry that was set after the panics. -/
example : after (tryLow [] stumble mem0) =
    some [.csr { r := 2, c := 2, values := [5], cols := [1], rowStart := [0, 1, 1] },
      .csr { r := 2, c := 2, values := [5, 9], cols := [1, 1], rowStart := [0, 1, 2] }] := by
  decide +kernel

/-- `func(v int) int { return 10 / v }`: Go panics on a division by zero. -/
def tenOver : ℤ → Option ℤ := fun v => if v = 0 then none else some (10 / v)

/-- A CSR matrix in memory with 5 at (0,1). -/
def tenMem : Mem ℤ :=
  { num := fun a => if a = 0 then [5] else [], int := fun a => if a = 0 then [1] else if a = 1 then [0, 1, 1] else [],
    row := fun _ => [], next := 2, slack := fun _ => 0 }

/-- The matrix. -/
def tenObj : LMat := .csr { r := 2, c := 2, values := ⟨0, 0, 1⟩, cols := ⟨0, 0, 1⟩, rowStart := ⟨1, 0, 3⟩ }

/-- It is good and reachable; `Update(0, 1, 10/v)` makes the 5 a 2, `Update(0, 0, 10/v)` panics. -/
example : tenObj.Good tenMem ∧ Reach (tenObj.view tenMem) ∧
    after ((do let o ← tenObj.updateTry 0 1 tenOver; pure [o]) tenMem) =
      some [.csr { r := 2, c := 2, values := [(2 : ℤ)], cols := [1], rowStart := [0, 1, 1] }] ∧
    after ((do let o ← tenObj.updateTry 0 0 tenOver; pure [o]) tenMem) = none :=
  ⟨⟨⟨by decide, by decide⟩, ⟨by decide, by decide⟩, ⟨by decide, by decide⟩, by decide⟩,
    .call (.set 0 1 5) (.newCSR 2 2) rfl, by decide +kernel, by decide +kernel⟩

end GB
