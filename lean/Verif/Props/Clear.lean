import Verif.Props.Mutex
import Verif.Lemmas.Clear

/-!
# C90: when `Clear` of a `MutexMatrix` is atomic
-/

namespace GB
namespace Mutex

set_option linter.unusedSectionVars false

variable {T : Type} [GoNum T] [GoStore T] {n : Nat} {gas : Nat} {body : Method T → Prog (Mat T) (Out (Val T))}
  {s0 : Mat T} {calls : Fin n → List (Method T)} {c : Conf n (Method T) (Mat T) (Out (Val T))}

theorem not_sound_clear : ¬ (Method.clear : Method T).Sound := by
  simp [Method.Sound]

theorem clearApart_steps (hb : body = Method.atomic gas ∨ body = Method.fine gas) (hs : Reach s0)
    (hA : ∀ i, ∀ m ∈ calls i, m.Sound ∨ m = .clear)
    (h : StepsIn Method.mode body Conf.ClearApart (Conf.init s0 calls) c) :
    SerialW Method.mode (Method.alone gas) Method.Sound Reach .clear (Left gas) s0 calls c := by
  have hC : Splits gas body := by
    rcases hb with rfl | rfl
    · exact atomic_splits gas
    · exact fine_splits gas
  exact SerialW.steps hC.calls (clear_wipe hb) not_sound_clear h (SerialW.init hs hA)

/-- **C90**, serialisation: goroutines that call `Clear` and any of the calls of C35, in an execution in which no
call that reads is inside the wrapped matrix together with a `Clear`. However `Clear` is split into accesses, and however many
calls of `Clear` are inside at the same time, the calls have had the outcomes they have one after the other in the order in
which they acquired the lock, and the matrix is the one those calls leave. -/
theorem C90_serial (hb : body = Method.atomic gas ∨ body = Method.fine gas) (hs : Reach s0)
    (hA : ∀ i, ∀ m ∈ calls i, m.Sound ∨ m = .clear)
    (h : StepsIn Method.mode body Conf.ClearApart (Conf.init s0 calls) c) (hf : c.Finished) :
    c.mat = (serial (Method.alone gas) s0 c.order).1 ∧
    (∀ i, lockedResults (c.thr i).res = ofThread i (serial (Method.alone gas) s0 c.order).2) ∧
    ∀ i, (c.order.filter (fun x => x.1 = i)).map Prod.snd = lockedCalls (calls i) := by
  have H := clearApart_steps hb hs hA h
  refine ⟨H.still (fun i m p hi => ?_), fun i => ?_, fun i => ?_⟩
  · rw [(hf i).2] at hi; cases hi
  · have := H.results i
    rw [(hf i).2, ahead_idle, List.append_nil] at this
    rw [lockedResults_eq]; exact this
  · have := H.program i
    rw [(hf i).1, (hf i).2] at this
    simp only [asked_idle, locked, List.filter_nil, List.append_nil] at this
    rw [lockedCalls_eq]; exact this

/-- **C90**, at every moment: whenever no `Set`, `Update` or `Clear` is inside, the matrix is the one left by the calls that
have acquired the lock, made one after the other, and one a program can obtain. -/
theorem C90_between (hb : body = Method.atomic gas ∨ body = Method.fine gas) (hs : Reach s0)
    (hA : ∀ i, ∀ m ∈ calls i, m.Sound ∨ m = .clear)
    (h : StepsIn Method.mode body Conf.ClearApart (Conf.init s0 calls) c)
    (hn : ∀ i m, c.Inside i m → ¬ m.Mutates) :
    c.mat = (serial (Method.alone gas) s0 c.order).1 ∧ Reach c.mat := by
  have H := clearApart_steps hb hs hA h
  have e := H.still (fun i m p hi => ⟨fun hm => hn i m ⟨p, hi⟩ (by cases m <;> simp [Method.mode, Method.Mutates] at hm ⊢),
    fun hm => hn i m ⟨p, hi⟩ (by rw [hm]; trivial)⟩)
  exact ⟨e, by rw [e]; exact H.inv⟩

/-- **C90**, while calls of `Clear` are inside: no call of `Clear` ever panics, and if no `Set` or `Update` has acquired the
lock since, what they will leave is the cleared matrix, whatever half-cleared state it is in. -/
theorem C90_clears (hb : body = Method.atomic gas ∨ body = Method.fine gas) (hs : Reach s0)
    (hA : ∀ i, ∀ m ∈ calls i, m.Sound ∨ m = .clear)
    (h : StepsIn Method.mode body Conf.ClearApart (Conf.init s0 calls) c) {i : Fin n} :
    (c.Inside i .clear → c.mat.clear = (serial (Method.alone gas) s0 c.order).1) ∧
    ∀ x, (.clear, x) ∈ (c.thr i).res → x = .ok .unit := by
  have H := clearApart_steps hb hs hA h
  refine ⟨fun ⟨p, hp⟩ => (H.wiping i p hp).1.same, fun x hx => ?_⟩
  have h1 : (Method.clear, x) ∈ ofThread i (serial (Method.alone gas) s0 c.order).2 := by
    rw [← H.results i]
    exact List.mem_append_left _ (List.mem_filter.2 ⟨hx, by simp [Method.mode]⟩)
  have key : ∀ (l : List (Fin n × Method T)) (s : Mat T), ∀ y ∈ (serial (Method.alone gas) s l).2, y.2.1 = .clear →
      y.2.2 = .ok .unit := by
    intro l
    induction l with
    | nil => intro s y hy; simp [serial] at hy
    | cons a l ih =>
      intro s y hy hc
      simp only [serial, List.mem_cons] at hy
      rcases hy with rfl | hy
      · dsimp only at hc ⊢; rw [hc]; rfl
      · exact ih _ y hy hc
  unfold ofThread at h1
  obtain ⟨y, hy, he⟩ := List.mem_map.1 h1
  have := key _ _ y (List.mem_of_mem_filter hy) (by rw [he])
  rw [he] at this
  exact this

/-- Goroutines that write only: every execution keeps `Clear` apart from the reads. -/
theorem C90_writers (hw : ∀ i, ∀ m ∈ calls i, m.mode = .read → m = .clear)
    (h : Steps Method.mode body (Conf.init s0 calls) c) :
    StepsIn Method.mode body Conf.ClearApart (Conf.init s0 calls) c := by
  have key : ∀ {d : Conf n (Method T) (Mat T) (Out (Val T))}, Steps Method.mode body (Conf.init s0 calls) d →
      ∀ i, (∀ m ∈ (d.thr i).todo, m.mode = .read → m = .clear) ∧
        ∀ m, (d.Inside i m ∨ (d.thr i).phase = .waiting m) → m.mode = .read → m = .clear := by
    intro d hd
    induction hd with
    | refl => exact fun i => ⟨hw i, fun m hm => by rcases hm with ⟨p, hp⟩ | hp <;> cases hp⟩
    | @tail d e _ hs ih =>
      intro j
      have same : ∀ (i : Fin n) (t : Thread (Method T) (Mat T) (Out (Val T))), i ≠ j → Function.update d.thr i t j = d.thr j :=
        fun i t hne => Function.update_of_ne (Ne.symm hne) _ _
      have old := ih j
      unfold Conf.Inside at old ⊢
      cases hs with
      | @announce i m rest res e' hm hp =>
        dsimp only [Conf.put]
        by_cases hij : i = j
        · subst hij
          rw [e'] at old
          rw [Function.update_self]
          exact ⟨fun x hx => old.1 x (List.mem_cons_of_mem _ hx), fun x hx => by
            rcases hx with ⟨p, hp⟩ | hx
            · cases hp
            · cases hx; exact old.1 _ List.mem_cons_self⟩
        · rw [same i _ hij]; exact old
      | @lock i m rest res e' hr =>
        dsimp only [Conf.put]
        by_cases hij : i = j
        · subst hij
          rw [e'] at old
          rw [Function.update_self]
          exact ⟨old.1, fun x hx => by
            rcases hx with ⟨p, hp⟩ | hx
            · cases hp; exact old.2 _ (.inr rfl)
            · cases hx⟩
        · rw [same i _ hij]; exact old
      | @rlock i m rest res e' hm hp =>
        dsimp only [Conf.put]
        by_cases hij : i = j
        · subst hij
          rw [e'] at old
          rw [Function.update_self]
          exact ⟨fun x hx => old.1 x (List.mem_cons_of_mem _ hx), fun x hx => by
            rcases hx with ⟨p, hp⟩ | hx
            · cases hp; exact old.1 _ List.mem_cons_self
            · cases hx⟩
        · rw [same i _ hij]; exact old
      | @enter i m rest res e' hm =>
        dsimp only [Conf.put]
        by_cases hij : i = j
        · subst hij
          rw [e'] at old
          rw [Function.update_self]
          exact ⟨fun x hx => old.1 x (List.mem_cons_of_mem _ hx), fun x hx => by
            rcases hx with ⟨p, hp⟩ | hx
            · cases hp; exact old.1 _ List.mem_cons_self
            · cases hx⟩
        · rw [same i _ hij]; exact old
      | @act i m rest res f k e' =>
        dsimp only [Conf.put]
        by_cases hij : i = j
        · subst hij
          rw [e'] at old
          rw [Function.update_self]
          exact ⟨old.1, fun x hx => by
            rcases hx with ⟨p, hp⟩ | hx
            · cases hp; exact old.2 _ (.inl ⟨_, rfl⟩)
            · cases hx⟩
        · rw [same i _ hij]; exact old
      | @leave i m rest res r e' =>
        dsimp only [Conf.put]
        have r3 : (d.release m.mode).thr = d.thr := by cases m.mode <;> rfl
        rw [r3]
        by_cases hij : i = j
        · subst hij
          rw [e'] at old
          rw [Function.update_self]
          exact ⟨old.1, fun x hx => by
            rcases hx with ⟨p, hp⟩ | hx
            · cases hp
            · cases hx⟩
        · rw [same i _ hij]; exact old
  have apart : ∀ {d : Conf n (Method T) (Mat T) (Out (Val T))}, Steps Method.mode body (Conf.init s0 calls) d → d.ClearApart :=
    fun hd i j m _ hj hm => (key hd j).2 m (.inl hj) hm
  have all : ∀ {d : Conf n (Method T) (Mat T) (Out (Val T))}, Steps Method.mode body (Conf.init s0 calls) d →
      StepsIn Method.mode body Conf.ClearApart (Conf.init s0 calls) d := by
    intro d hd
    induction hd with
    | refl => exact .refl (apart .refl)
    | @tail d e hd hs ih => exact .tail ih hs (apart (hd.tail hs))
  exact all h

/-! ## Concrete executions -/

/-- A dense matrix that holds 1, 2 and 3, 4. -/
def dense12 : Mat ℤ := .dense ⟨2, 2, [[1, 2], [3, 4]]⟩

theorem dense12_reach : Reach dense12 :=
  .call (.set 1 1 4) (.call (.set 1 0 3) (.call (.set 0 1 2) (.call (.set 0 0 1) (.newDense 2 2) rfl) rfl) rfl) rfl

/-- Both goroutines clear, one writes after that. -/
def progTwo : Fin 2 → List (Method ℤ)
  | 0 => [.clear, .set 0 1 7]
  | 1 => [.clear]

/-- The second `Clear` takes away the row the first has put, and the first returns while it is away. -/
def runTwo (l : List (Fin 2)) : Option (Conf 2 (Method ℤ) (Mat ℤ) (Out (Val ℤ))) :=
  exec Method.mode (Method.fine 9) l (Conf.init dense12 progTwo)

example : ((runTwo [0, 0, 0, 0, 1, 1, 1, 0, 0]).map fun c => ((c.thr 0).res, (c.thr 1).todo.length, c.mat)) =
    some ([(.clear, .ok .unit)], 0, .dense ⟨2, 2, [[], [0, 0]]⟩) := by rfl

/-- In the end everything is as after two calls of `Clear` and one of `Set`: the theorem applies. -/
example : ∃ c, runTwo [0, 0, 0, 0, 1, 1, 1, 0, 0, 1, 1, 1, 0, 0, 0, 0, 0] = some c ∧ c.Finished ∧
    StepsIn Method.mode (Method.fine 9) Conf.ClearApart (Conf.init dense12 progTwo) c ∧
    c.order = [(0, .clear), (1, .clear), (0, .set 0 1 7)] ∧ c.mat = .dense ⟨2, 2, [[0, 7], [0, 0]]⟩ := by
  have hs : (runTwo [0, 0, 0, 0, 1, 1, 1, 0, 0, 1, 1, 1, 0, 0, 0, 0, 0]).isSome = true := by rfl
  obtain ⟨c, hc⟩ := Option.isSome_iff_exists.1 hs
  have h1 : ((runTwo [0, 0, 0, 0, 1, 1, 1, 0, 0, 1, 1, 1, 0, 0, 0, 0, 0]).map fun c => (c.thr 0, c.thr 1, c.order)) =
    some (⟨[], .idle, [(.clear, .ok .unit), (.set 0 1 7, .ok .unit)]⟩, ⟨[], .idle, [(.clear, .ok .unit)]⟩,
      [(0, .clear), (1, .clear), (0, .set 0 1 7)]) := by rfl
  rw [hc] at h1
  simp only [Option.map_some, Option.some.injEq, Prod.mk.injEq] at h1
  have hf : c.Finished := by
    intro i
    match i with
    | 0 => rw [h1.1]; exact ⟨rfl, rfl⟩
    | 1 => rw [h1.2.1]; exact ⟨rfl, rfl⟩
  have h : StepsIn Method.mode (Method.fine 9) Conf.ClearApart (Conf.init dense12 progTwo) c := by
    refine C90_writers (fun i m hm hr => ?_) (exec_steps Steps.refl hc)
    match i with
    | 0 => simp only [progTwo, List.mem_cons, List.not_mem_nil, or_false] at hm
           rcases hm with rfl | rfl
           · rfl
           · cases hr
    | 1 => simpa [progTwo] using hm
  have H := C90_serial (.inr rfl) dense12_reach (fun i m hm => ?_) h hf
  · refine ⟨c, hc, hf, h, h1.2.2, ?_⟩
    rw [H.1, h1.2.2]; rfl
  · match i with
    | 0 => simp only [progTwo, List.mem_cons, List.not_mem_nil, or_false] at hm
           rcases hm with rfl | rfl
           · exact .inr rfl
           · exact .inl trivial
    | 1 => exact .inr (by simpa [progTwo] using hm)

/-! ## The hypothesis is needed -/

/-- One goroutine clears, the other reads. -/
def progPeek : Fin 2 → List (Method ℤ)
  | 0 => [.clear]
  | 1 => [.at' 0 0]

/-- `At` comes after the rows have been taken away. -/
def runPeek (l : List (Fin 2)) : Option (Conf 2 (Method ℤ) (Mat ℤ) (Out (Val ℤ))) :=
  exec Method.mode (Method.fine 9) l (Conf.init dense12 progPeek)

/-- **C90** does not hold without its hypothesis: a complete execution in which `At` of a valid index of a dense matrix
panics because a `Clear` is on its way, which it does in no order of the two calls. -/
theorem C90_refuted_dense : ∃ c, Steps Method.mode (Method.fine 9) (Conf.init dense12 progPeek) c ∧
    c.Finished ∧ (c.thr 1).res = [(.at' 0 0, .panic)] ∧
    ∀ order : List (Fin 2 × Method ℤ), order.Perm [(0, .clear), (1, .at' 0 0)] →
      (c.thr 1).res ≠ ofThread 1 (serial (Method.alone 9) dense12 order).2 := by
  have hs : (runPeek [0, 0, 0, 1, 1, 1, 1, 0, 0, 0]).isSome = true := by rfl
  obtain ⟨c, hc⟩ := Option.isSome_iff_exists.1 hs
  have h1 : ((runPeek [0, 0, 0, 1, 1, 1, 1, 0, 0, 0]).map fun c => (c.thr 0, c.thr 1)) =
    some (⟨[], .idle, [(.clear, .ok .unit)]⟩, ⟨[], .idle, [(.at' 0 0, .panic)]⟩) := by rfl
  rw [hc] at h1
  simp only [Option.map_some, Option.some.injEq, Prod.mk.injEq] at h1
  refine ⟨c, exec_steps Steps.refl hc, ?_, by rw [h1.2], ?_⟩
  · intro i
    match i with
    | 0 => rw [h1.1]; exact ⟨rfl, rfl⟩
    | 1 => rw [h1.2]; exact ⟨rfl, rfl⟩
  · intro order ho
    have ho := List.mem_permutations'.2 ho
    rw [show ([(0, .clear), (1, .at' 0 0)] : List (Fin 2 × Method ℤ)).permutations' =
      [[(0, .clear), (1, .at' 0 0)], [(1, .at' 0 0), (0, .clear)]] from by rfl] at ho
    rw [h1.2]
    simp only [List.mem_cons, List.not_mem_nil, or_false] at ho
    have key : ∀ v : ℤ, ([(.at' 0 0, .panic)] : List (Method ℤ × Out (Val ℤ))) ≠ [(.at' 0 0, .ok (.num v))] := by
      intro v h; simp at h
    rcases ho with rfl | rfl
    · exact key 0
    · exact key 1

/-- In that execution a read is inside together with `Clear`. -/
theorem C90_refuted_dense_inside : ∃ c, Steps Method.mode (Method.fine 9) (Conf.init dense12 progPeek) c ∧
    c.mat = .dense ⟨2, 2, [[], []]⟩ ∧ ¬ c.mat.WF ∧ ¬ c.ClearApart := by
  have hs : (runPeek [0, 0, 0, 1]).isSome = true := by rfl
  obtain ⟨c, hc⟩ := Option.isSome_iff_exists.1 hs
  have h1 : ((runPeek [0, 0, 0, 1]).map fun c => ((c.thr 0).phase, (c.thr 1).phase, c.mat)) =
    some (.inside .clear (fillProgD 2 0), .inside (.at' 0 0) (Method.fine 9 (.at' 0 0)), .dense ⟨2, 2, [[], []]⟩) := by rfl
  rw [hc] at h1
  simp only [Option.map_some, Option.some.injEq, Prod.mk.injEq] at h1
  refine ⟨c, exec_steps Steps.refl hc, h1.2.2, ?_, fun h => ?_⟩
  · rw [h1.2.2]
    intro h
    have := h.2 [] (by simp)
    simp at this
  · have := h 0 1 (.at' 0 0) ⟨_, h1.1⟩ ⟨_, h1.2.1⟩ rfl
    cases this

end Mutex
end GB
