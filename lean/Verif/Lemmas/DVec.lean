import Verif.Lemmas.Basic
import Verif.Model.DVec
import Verif.Spec

/-!
# Dense vectors
-/

namespace GB

set_option linter.unusedSectionVars false

variable {T : Type} [GoNum T]

namespace DVec

/-- The slice has the advertised length. -/
def WF (s : DVec T) : Prop := s.values.length = s.l

/-- The value at a position. -/
def cell (s : DVec T) (i : Nat) : T := s.values.getD i 0

theorem wf_new (l : Nat) : WF (new l : DVec T) := by simp [WF, new]

theorem cell_new (l i : Nat) : cell (new l : DVec T) i = 0 := by
  simp [cell, new, List.getD, List.getElem?_replicate]; split <;> rfl

theorem atVec_ok {s : DVec T} (h : WF s) {i : Nat} (hi : i < s.l) : s.atVec i = .ok (s.cell i) := by
  have : i < s.values.length := by rw [h]; exact hi
  simp [atVec, hi, idx_ok this, cell, List.getD, this]

theorem atVec_panic (s : DVec T) (i : Int) (h : ¬ inRange i s.l = true) : s.atVec i = .panic := by
  simp [atVec, h]

theorem setVec_ok {s : DVec T} (h : WF s) {i : Nat} (hi : i < s.l) (v : T) :
    s.setVec i v = .ok { s with values := s.values.set i v } := by
  have : i < s.values.length := by rw [h]; exact hi
  simp [setVec, hi, setIdx_ok this]

theorem setVec_wf {s : DVec T} (h : WF s) {i : Nat} {v : T} :
    WF { s with values := s.values.set i v } := by simpa [WF] using h

theorem setVec_cell {s : DVec T} (h : WF s) {i : Nat} (hi : i < s.l) (v : T) (k : Nat) :
    cell { s with values := s.values.set i v } k = if k = i then v else s.cell k := by
  have : i < s.values.length := by rw [h]; exact hi
  unfold cell
  simp only [List.getD, List.getElem?_set]
  by_cases hk : k = i
  · subst hk; simp [this]
  · simp [hk, Ne.symm hk]

theorem updateWith_ok {β : Type} {s : DVec T} (h : WF s) {i : Nat} (hi : i < s.l) (f : T → β × T) :
    s.updateWith i 0 f = .ok ((f (s.cell i)).1, { s with values := s.values.set i (f (s.cell i)).2 }) := by
  unfold updateWith
  have e : inRange 0 1 = true := rfl
  simp [hi, e, atVec_ok h hi, setVec_ok h hi]

theorem update_ok {s : DVec T} (h : WF s) {i : Nat} (hi : i < s.l) (f : T → T) :
    s.update i 0 f = .ok { s with values := s.values.set i (f (s.cell i)) } := by
  unfold update
  rw [updateWith_ok h hi]; rfl

theorem set_ok {s : DVec T} (h : WF s) {i : Nat} (hi : i < s.l) (v : T) :
    s.set i 0 v = .ok { s with values := s.values.set i v } := by
  unfold set
  have e : inRange 0 1 = true := rfl
  simp [hi, e, setVec_ok h hi]

theorem copy_ok {s : DVec T} (h : WF s) : s.copy = .ok s := by
  unfold copy
  obtain ⟨m, h1, h2⟩ := loop_inv
    (f := fun i (v : DVec T) => do let x ← idx s.values i; v.setVec i x)
    (Inv := fun i m => m.l = s.l ∧ m.values = s.values.take i ++ List.replicate (s.values.length - i) 0)
    s.values.length 0 (new s.l) (by have : s.values.length = s.l := h; simp [new, this])
    (by
      intro i m _ hi ⟨e0, e1⟩
      have hi : i < s.values.length := by omega
      have hil : i < m.l := by rw [e0, ← h]; exact hi
      simp only [idx_ok hi, Out.ok_bind, setVec, inRange_natCast, hil, decide_true, if_true,
        Int.toNat_natCast, e1, copy_step _ _ hi]
      exact ⟨_, rfl, e0, rfl⟩)
  rw [h1]
  obtain ⟨e0, e1⟩ := h2
  have e1' : m.values = s.values := by rw [e1]; simp
  cases m; cases s
  simp only at e0 e1'
  rw [e0, e1']

/-- The entries in the order of iteration. -/
def entries (s : DVec T) : List (Nat × Nat × T) := (List.range s.l).map (fun i => (i, 0, s.cell i))

theorem faithful {s : DVec T} : Faithful s.l 1 (fun i _ => s.cell i) s.entries := by
  refine ⟨?_, ?_, ?_, ?_⟩
  · intro e he
    obtain ⟨i, hi, rfl⟩ := List.mem_map.1 he
    exact ⟨by simpa using hi, by simp⟩
  · unfold entries
    rw [List.pairwise_map]
    refine List.Pairwise.imp ?_ (List.pairwise_lt_range (n := s.l))
    intro a b hab; simp; omega
  · intro e he
    obtain ⟨i, hi, rfl⟩ := List.mem_map.1 he
    rfl
  · intro i j hi hj _
    obtain rfl : j = 0 := by omega
    exact List.mem_map.2 ⟨i, by simpa using hi, rfl⟩

/-- The iterator has delivered the first `k` entries. -/
structure IterAt (s : DVec T) (it : Iter) (k : Nat) : Prop where
  size : it.size = s.l
  last : it.last = k
  r : it.r = k

theorem iter_init (s : DVec T) : IterAt s s.iter 0 := ⟨rfl, rfl, rfl⟩

theorem step_ok {s : DVec T} (h : WF s) {it : Iter} {k : Nat} (hit : IterAt s it k) (hk : k < s.l) :
    ∃ it', s.step it = .ok (it', k, 0, s.cell k) ∧ IterAt s it' (k + 1) ∧ it'.rOld = k := by
  have h1 := hit.r
  have h2 := hit.last
  have hn : it.r ≠ s.l := by omega
  refine ⟨s.next it, ?_, ⟨?_, ?_, ?_⟩, ?_⟩
  · unfold step
    have : (s.next it).rOld = k := by simp only [next, hn, if_false]; omega
    simp only [this, atVec_ok h hk, Out.ok_bind]
  · simp [next, hn, hit.size]
  · simp [next, hn, h2]
  · simp only [next, hn, if_false]; omega
  · simp only [next, hn, if_false]; omega

theorem yields {s : DVec T} (h : WF s) : Yields Iter.hasNext s.step s.iter s.entries := by
  have key : ∀ n k it, n + k = s.l → IterAt s it k →
      Yields Iter.hasNext s.step it (s.entries.drop k) := by
    intro n
    induction n with
    | zero =>
      intro k it hn hit
      rw [List.drop_eq_nil_of_le (by simp [entries]; omega)]
      simp [Yields, Iter.hasNext, hit.last, hit.size]; omega
    | succ n ih =>
      intro k it hn hit
      have hk : k < s.entries.length := by simp [entries]; omega
      rw [List.drop_eq_getElem_cons hk]
      obtain ⟨it', h1, h2, -⟩ := step_ok h hit (by omega)
      refine ⟨by simp [Iter.hasNext, hit.last, hit.size]; omega, it', ?_, ih (k + 1) it' (by omega) h2⟩
      rw [h1]; simp [entries]
  have := key s.l 0 s.iter (by omega) (iter_init s)
  simpa using this

end DVec
end GB
