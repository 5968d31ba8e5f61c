import Verif.Lemmas.Quit
import Verif.Props.SearchCut

/-!
# C111: a search whose predicate cancels the context

The claim: a predicate that cancels the search's own context and answers true ends the search as any other predicate does. One
that cancels it and answers false does not end it, but makes it find nothing more: the result is 0 everywhere, whatever the
predicate has seen and whatever it would have answered later.
-/

namespace GB

set_option linter.unusedSectionVars false

open M

/-- `v` is the vector the `d`-th call (counted from 0) of an undisturbed search is made on: of length `Rows()`, and exactly
that level. -/
def Level {T : Type} [GoRing T] (A : Mat T) (s d : Nat) (v : Mat T) : Prop :=
  v.WF ∧ v.kind = .dvec ∧ v.rows = A.rows ∧ LevelAt A s d v

/-- `v` is a vector of length `n` that is 0 everywhere. -/
def ZeroVec {T : Type} [GoNum T] (n : Nat) (v : Mat T) : Prop :=
  v.WF ∧ v.kind = .dvec ∧ v.rows = n ∧ ∀ i, i < n → v.val i 0 = 0

section ring
open Classical in
/-- There is such a vector for every `d`. -/
theorem Level.exist {T : Type} [GoRing T] [GoLawful T] (A : Mat T) (s d : Nat) : ∃ v, Level A s d v := by
  let L : Nat → T := fun i => if Dist (Edge A) s (d + 1) i then walkSum (fun l r => A.val r l) A.rows s (d + 1) i else 0
  have hwf : (⟨A.rows, (List.range A.rows).map L⟩ : DVec T).WF := by show List.length _ = _; simp
  refine ⟨.dvec ⟨A.rows, (List.range A.rows).map L⟩, hwf, rfl, rfl, fun i hi => ?_⟩
  have hv : (Mat.dvec ⟨A.rows, (List.range A.rows).map L⟩).val i 0 = L i := by
    rw [Mat.val_dvec hwf hi]
    simp [DVec.cell, hi]
  rw [hv]
  exact ⟨fun h => if_pos h, fun h => if_neg h⟩

variable {T : Type} [GoRing T] [GoLawful T]

/-- C111: a predicate that answers `g v` and cancels if `h v`, with any `g` that is false of the zero vector and any `h`. The
search returns and writes no object of the caller. Either it returns the first level with `g`, no level before it having `g`
or `h`; or it returns 0 everywhere, and then every level with `g` has one with `h` before it. -/
theorem C111_search {w : World T} {a : Ref} {s : Nat} {c : Ref → M T Bool} {g h : Mat T → Bool} (han : a < w.next)
    (hw : (w.heap a).WF) (hsq : (w.heap a).cols = (w.heap a).rows) (hfit : (w.heap a).RowsFit)
    (hz : GoNum.glt (0 : T) 0 = false) (hpos : ShortestPositive (w.heap a) s)
    (hs : s < (w.heap a).rows) (hc : w.cancel = none) (hg : (w.heap a).rows ≤ w.gas)
    (hq : Quits c g h) (hg0 : ∀ v, ZeroVec (w.heap a).rows v → g v = false) :
    ∃ p u, BFS.searchBy a s c w = .ok p u ∧ w.next ≤ p ∧ (∀ q, q < w.next → u.heap q = w.heap q) ∧
      ((∃ d, d < (w.heap a).rows ∧ Level (w.heap a) s d (u.heap p) ∧ g (u.heap p) = true ∧
          ∀ e, e < d → ∀ v, Level (w.heap a) s e v → g v = false ∧ h v = false) ∨
       (ZeroVec (w.heap a).rows (u.heap p) ∧
          ∀ d v, d < (w.heap a).rows → Level (w.heap a) s d v → g v = true →
            ∃ e v', e < d ∧ Level (w.heap a) s e v' ∧ h v' = true)) := by
  obtain ⟨w3, frontier, visited, result, hrun, hold, hst⟩ := BFS.startBy (n := (w.heap a).rows) han ⟨hw, rfl, hsq, hfit⟩ hs hc
  have h0 : ∀ i, Dist (Edge (w.heap a)) s 0 i ↔ i = s := by
    intro i
    constructor
    · intro h; cases h.1; rfl
    · rintro rfl; exact ⟨.zero, fun j hj => absurd hj (Nat.not_lt_zero _)⟩
  have lvl : ∀ d v, BFS.Lvl (fun l r => (w.heap a).val r l) (Edge (w.heap a)) (w.heap a).rows s d v ↔
      Level (w.heap a) s d v := fun d v =>
    ⟨fun ⟨h1, h2⟩ => ⟨h1.wf, h1.kind, h1.rows, h2⟩, fun ⟨h1, h2, h3, h4⟩ => ⟨⟨h1, h2, h3⟩, h4⟩⟩
  obtain ⟨u, u1, u2, u3⟩ := BFS.turnsBy_quit (W := fun l r => (w.heap a).val r l) (E := Edge (w.heap a)) (s := s) (w0 := w)
    rfl hsq (fun _ _ => rfl) (fun l r => by unfold Edge; rw [hsq]) hz (fun k i hi hd => hpos k i hi hd) hq
    (fun v hv h => hg0 v ⟨hv.wf, hv.kind, hv.rows, h⟩) (by omega) hg (w.heap a).rows w3 frontier _ _ 0 (Nat.zero_add _) hst
    hold
    (fun i hi => by simp only [h0, walkSum]; constructor <;> intro h <;> simp [h])
    (fun i hi => by
      refine ⟨fun j hj hd => ?_, fun hn => ?_⟩
      · obtain rfl : j = 0 := by omega
        simp [(h0 i).1 hd, walkSum]
      · exact if_neg fun he => hn ⟨0, by simp, ((h0 i).2 he).1⟩)
    (fun e he => absurd he (Nat.not_lt_zero e))
  simp only [lvl] at u3
  refine ⟨result, u, by rw [hrun, bind_ok u1]; rfl, hst.oR, u2, ?_⟩
  rcases u3 with h' | ⟨h1, h2, h3⟩
  · exact Or.inl h'
  · exact Or.inr ⟨⟨h1.wf, h1.kind, h1.rows, h2⟩, h3⟩

/-- C111: a predicate that cancels instead of answering true never gets anything: the result is 0 everywhere. -/
theorem C111_lost {w : World T} {a : Ref} {s : Nat} {c : Ref → M T Bool} {h : Mat T → Bool} (han : a < w.next)
    (hw : (w.heap a).WF) (hsq : (w.heap a).cols = (w.heap a).rows) (hfit : (w.heap a).RowsFit)
    (hz : GoNum.glt (0 : T) 0 = false) (hpos : ShortestPositive (w.heap a) s)
    (hs : s < (w.heap a).rows) (hc : w.cancel = none) (hg : (w.heap a).rows ≤ w.gas)
    (hq : Quits c (fun _ => false) h) :
    ∃ p u, BFS.searchBy a s c w = .ok p u ∧ (∀ q, q < w.next → u.heap q = w.heap q) ∧
      ZeroVec (w.heap a).rows (u.heap p) := by
  obtain ⟨p, u, h1, -, h2, h3⟩ := C111_search han hw hsq hfit hz hpos hs hc hg hq (fun _ _ => rfl)
  refine ⟨p, u, h1, h2, ?_⟩
  rcases h3 with ⟨_, _, _, h, _⟩ | ⟨h, _⟩
  · cases h
  · exact h

/-- C111: a predicate that waits for the vertex `t`, then cancels and answers true, gets what one that does not cancel gets:
the level of `t` if there is a walk to it (of one edge or more), and 0 everywhere if not. -/
theorem C111_kept {w : World T} {a : Ref} {s t : Nat} {c : Ref → M T Bool} {g : Mat T → Bool} (han : a < w.next)
    (hw : (w.heap a).WF) (hsq : (w.heap a).cols = (w.heap a).rows) (hfit : (w.heap a).RowsFit)
    (hz : GoNum.glt (0 : T) 0 = false) (hpos : ShortestPositive (w.heap a) s)
    (hs : s < (w.heap a).rows) (hc : w.cancel = none) (hg : (w.heap a).rows ≤ w.gas) (ht : t < (w.heap a).rows)
    (hgt : ∀ v, g v = true ↔ v.val t 0 ≠ 0) (hq : Quits c g g) :
    ∃ p u, BFS.searchBy a s c w = .ok p u ∧ (∀ q, q < w.next → u.heap q = w.heap q) ∧
      ((∃ d, Dist (Edge (w.heap a)) s (d + 1) t ∧ Level (w.heap a) s d (u.heap p)) ∨
       ((∀ d, ¬ Dist (Edge (w.heap a)) s (d + 1) t) ∧ ZeroVec (w.heap a).rows (u.heap p))) := by
  have reach : ∀ d v, Level (w.heap a) s d v → (g v = true ↔ Dist (Edge (w.heap a)) s (d + 1) t) := by
    intro d v hv
    rw [hgt]
    refine ⟨fun hne => ?_, fun hd h0 => ?_⟩
    · by_contra hn
      exact hne ((hv.2.2.2 t ht).2 hn)
    · have h2 := hpos _ t ht hd
      rw [← (hv.2.2.2 t ht).1 hd, h0, hz] at h2
      cases h2
  obtain ⟨p, u, h1, -, h2, h3⟩ := C111_search han hw hsq hfit hz hpos hs hc hg hq (fun v hv => by
    have := hgt v
    rw [hv.2.2.2 t ht] at this
    simpa using this)
  refine ⟨p, u, h1, h2, ?_⟩
  rcases h3 with ⟨d, _, h4, h5, _⟩ | ⟨h4, h5⟩
  · exact Or.inl ⟨d, (reach d _ h4).1 h5, h4⟩
  · refine Or.inr ⟨fun d hd => ?_, h4⟩
    obtain ⟨v, hv⟩ := Level.exist (w.heap a) s d
    have hlt := hd.lt hs (fun u v huv => huv.2.1)
    obtain ⟨e, v', he, hv', hg'⟩ := h5 d v (by omega) hv ((reach d v hv).2 hd)
    exact hd.2 (e + 1) (by omega) ((reach e v' hv').1 hg').1

/-- C111 for predicates that may also write the vector and the graph, panic or not return, as those of C108, and may cancel
the context. `RoundsCut` says what happens, round by round: as in C108 up to the call that cancels; from then on every call
is made on the zero vector, whatever the predicate wrote, and there are as many calls as without cancelling. -/
theorem C111_rounds {w : World T} {a : Ref} {s : Nat} {c : Ref → M T Bool} (han : a < w.next)
    (hw : (w.heap a).WF) (hsq : (w.heap a).cols = (w.heap a).rows) (hfit : (w.heap a).RowsFit)
    (hs : s < (w.heap a).rows) (hc : w.cancel = none) (hg : (w.heap a).rows ≤ w.gas)
    (hciv : BFS.CivilCut c w a (w.heap a).rows) :
    ∃ p, w.next ≤ p ∧ RoundsCut c a p w.next (w.heap a).rows (w.heap a).rows (fun i => if i = s then 1 else 0)
      (fun i => if i = s then 1 else 0) w (BFS.searchBy a s c w) := by
  obtain ⟨w3, frontier, visited, result, hrun, hold, hst⟩ := BFS.startBy (n := (w.heap a).rows) han ⟨hw, rfl, hsq, hfit⟩ hs hc
  refine ⟨result, hst.oR, ?_⟩
  rw [hrun c]
  exact BFS.turnsBy_cut hciv (by omega) hg _ w3 w frontier _ _ hst hold

/-- Every predicate of `C111_search` is one of `C111_rounds`. -/
theorem Quits.civil {c : Ref → M T Bool} {g h : Mat T → Bool} (hq : Quits c g h) (w : World T) (a : Ref) (n : Nat) :
    BFS.CivilCut c w a n := by
  have key : ∀ p x b u, c p x = .ok b u → u = { x with cancel := if h (x.heap p) then some 0 else x.cancel } := by
    intro p x b u e
    rw [hq p x] at e
    injection e with _ e
    exact e.symm
  refine ⟨?_, ?_, ?_, ?_, ?_⟩
  · intro p x b u F _ _ e
    rw [key p x b u e]
    exact F
  · intro p x b u _ _ _ e
    rw [key p x b u e]
  · intro p x b u q _ _ _ e _ _ _
    rw [key p x b u e]
  · intro p x b u e hx
    rw [key p x b u e]
    show (if h (x.heap p) then some 0 else x.cancel) = none ∨ (if h (x.heap p) then some 0 else x.cancel) = some 0
    rw [hx]
    split
    · exact Or.inr rfl
    · exact Or.inl rfl
  · intro p x b u e hx
    rw [key p x b u e]
    show (if h (x.heap p) then some 0 else x.cancel) = some 0
    rw [hx, ite_self]

omit [GoLawful T] in
/-- C111: once the context is cancelled, a predicate that answers false of the zero vector gets the zero vector, whatever it
writes. -/
theorem C111_idle {c : Ref → M T Bool} {p : Ref} {own n k : Nat} {last : World T} {r : Res T Ref} (h : Idle c p own n k last r)
    (hc : ∀ w, ZeroVec n (w.heap p) → ∃ u, c p w = .ok false u) :
    ∃ u, r = .ok p u ∧ (u.heap p).kind = .dvec ∧ (u.heap p).rows = n ∧ ∀ i, i < n → (u.heap p).val i 0 = 0 := by
  have key : ∀ {last before : World T}, Blank p own n last before → ∃ u, c p before = .ok false u := fun hb =>
    hc _ ⟨hb.wf, hb.kind, hb.rows, hb.zero⟩
  induction h with
  | over _ h1 h2 h3 => exact ⟨_, rfl, h1, h2, h3⟩
  | found hb e => obtain ⟨u, h⟩ := key hb; rw [e] at h; cases h
  | panics hb e => obtain ⟨u, h⟩ := key hb; rw [e] at h; cases h
  | hangs hb e => obtain ⟨u, h⟩ := key hb; rw [e] at h; cases h
  | next _ _ _ ih => exact ih

end ring

/-! ## Concrete cases -/

/-- `func(v Vector) bool { if v.AtVec(t) != 0 { cancel() }; return false }`. -/
def quitAt (t : Nat) : Ref → M ℤ Bool := fun p w =>
  .ok false { w with cancel := if decide ((w.heap p).val t 0 ≠ 0) then some 0 else w.cancel }

/-- `func(v Vector) bool { if v.AtVec(t) != 0 { cancel(); return true }; return false }`. -/
def quitTrue (t : Nat) : Ref → M ℤ Bool := fun p w =>
  .ok (decide ((w.heap p).val t 0 ≠ 0)) { w with cancel := if decide ((w.heap p).val t 0 ≠ 0) then some 0 else w.cancel }

/-- `func(v Vector) bool { if v.AtVec(1) != 0 { cancel() }; return v.AtVec(2) != 0 }`. -/
def quitThen : Ref → M ℤ Bool := fun p w =>
  .ok (decide ((w.heap p).val 2 0 ≠ 0)) { w with cancel := if decide ((w.heap p).val 1 0 ≠ 0) then some 0 else w.cancel }

/-- On the path 0 → 1 → 2: the predicate that cancels and answers true gets the second level, the one that cancels and answers
false gets 0, and so does the one that cancels in the first round and would answer true in the second. -/
example :
    (match BFS.searchBy 0 0 (quitTrue 2) (World.of 9 [pathGraph]) with
      | .ok p w => some (w.heap p, w.cancel)
      | _ => none) = some (.dvec ⟨3, [0, 0, 1]⟩, some 0) ∧
    (match BFS.searchBy 0 0 (quitAt 2) (World.of 9 [pathGraph]) with
      | .ok p w => some (w.heap p, w.cancel)
      | _ => none) = some (.dvec ⟨3, [0, 0, 0]⟩, some 0) ∧
    (match BFS.searchBy 0 0 quitThen (World.of 9 [pathGraph]) with
      | .ok p w => some (w.heap p, w.cancel)
      | _ => none) = some (.dvec ⟨3, [0, 0, 0]⟩, some 0) := by
  refine ⟨?_, ?_, ?_⟩ <;> kernel_rfl

/-- The hypotheses of `C111_search` hold there, of each of the three. -/
example (c : Ref → M ℤ Bool) (g h : Mat ℤ → Bool) (hq : Quits c g h) (hg0 : ∀ v, ZeroVec 3 v → g v = false) :
    ∃ p u, BFS.searchBy 0 0 c (World.of 9 [pathGraph]) = .ok p u ∧ u.heap 0 = pathGraph := by
  obtain ⟨p, u, h1, -, h2, -⟩ := C111_search (w := World.of 9 [pathGraph]) (a := 0) (s := 0) (show 0 < 1 by decide)
    ⟨rfl, by intro row hr; simp at hr; rcases hr with rfl | rfl | rfl <;> rfl⟩ rfl
    (Mat.fit_dense (m := pathGraph) (by decide)).1 rfl pathGraph_pos (show 0 < 3 by decide) rfl (show 3 ≤ 9 by decide) hq hg0
  exact ⟨p, u, h1, h2 0 (show 0 < 1 by decide)⟩

example (t : Nat) : Quits (quitAt t) (fun _ => false) (fun v => decide (v.val t 0 ≠ 0)) := fun _ _ => rfl
example (t : Nat) : Quits (quitTrue t) (fun v => decide (v.val t 0 ≠ 0)) (fun v => decide (v.val t 0 ≠ 0)) := fun _ _ => rfl
example : Quits quitThen (fun v => decide (v.val 2 0 ≠ 0)) (fun v => decide (v.val 1 0 ≠ 0)) := fun _ _ => rfl

/-- `func(v Vector) bool { if v.AtVec(1) != 0 { cancel(); v.SetVec(2, 7) }; return false }`: what it wrote is lost too. -/
def quitWrite : Ref → M ℤ Bool := fun p w =>
  if (w.heap p).val 1 0 ≠ 0 then
    match (w.heap p).set 2 0 7 with
    | .ok v => .ok false { w with heap := Function.update w.heap p v, cancel := some 0 }
    | _ => .panic w
  else .ok false w

/-- `func(v Vector) bool { if v.AtVec(1) != 0 { cancel(); return false }; if v.AtVec(2) == 0 { panic("none") }; return true }`:
the second call is made on the zero vector, not on the second level. -/
def quitPanic : Ref → M ℤ Bool := fun p w =>
  if (w.heap p).val 1 0 ≠ 0 then .ok false { w with cancel := some 0 }
  else if (w.heap p).val 2 0 = 0 then .panic w else .ok true w

example :
    (match BFS.searchBy 0 0 quitWrite (World.of 9 [pathGraph]) with
      | .ok p w => some (w.heap p)
      | _ => none) = some (.dvec ⟨3, [0, 0, 0]⟩) ∧
    (match BFS.searchBy 0 0 quitPanic (World.of 9 [pathGraph]) with
      | .panic w => some (w.heap 3)
      | _ => none) = some (.dvec ⟨3, [0, 0, 0]⟩) := by
  constructor <;> kernel_rfl

/-- The hypotheses of `C111_rounds` hold of `quitThen`. -/
example : ∃ p, RoundsCut quitThen 0 p 1 3 3 (fun i => if i = 0 then 1 else 0) (fun i => if i = 0 then 1 else 0)
    (World.of 9 [pathGraph]) (BFS.searchBy 0 0 quitThen (World.of 9 [pathGraph])) := by
  have hq : Quits quitThen (fun v => decide (v.val 2 0 ≠ 0)) (fun v => decide (v.val 1 0 ≠ 0)) := fun _ _ => rfl
  obtain ⟨p, -, h⟩ := C111_rounds (w := World.of 9 [pathGraph]) (a := 0) (s := 0) (show 0 < 1 by decide)
    ⟨rfl, by intro row hr; simp at hr; rcases hr with rfl | rfl | rfl <;> rfl⟩ rfl
    (Mat.fit_dense (m := pathGraph) (by decide)).1 (show 0 < 3 by decide) rfl (show 3 ≤ 9 by decide) (hq.civil _ 0 _)
  exact ⟨p, h⟩

/-- So cancelling is no way to say that the search is over: the vertex 2 can be reached, the predicate was given the vector
that says so, and the search still answers what it answers when there is no way to the vertex. -/
theorem C111_indistinct : Dist (Edge pathGraph) 0 2 2 ∧
    (match BFS.searchBy 0 0 (quitAt 2) (World.of 9 [pathGraph]) with
      | .ok p w => some (w.heap p)
      | _ => none) = some (.dvec ⟨3, [0, 0, 0]⟩) :=
  ⟨C109_missed.1, by kernel_rfl⟩

end GB
