import Verif.Lemmas.Count
import Verif.Props.Storage

/-!
# Sparse vectors: C04 and C50
-/

namespace GB

set_option linter.unusedSectionVars false

variable {T : Type} [GoNum T]

/-- `SetVec` calls on a sparse vector, one after the other. -/
def SVec.runVec : SVec T → List (Nat × T) → Out (SVec T)
  | s, [] => .ok s
  | s, o :: os => do let s' ← s.setVec o.1 o.2; s'.runVec os

/-- Every call in the history writes a position that is at most the number of stored entries at
that moment, or lies beyond every stored position. -/
def SVec.Tame : SVec T → List (Nat × T) → Prop
  | _, [] => True
  | s, o :: os => (o.1 ≤ s.values.length ∨ ∀ k ∈ s.indices, k < o.1) ∧
      ∀ s', s.setVec o.1 o.2 = .ok s' → s'.Tame os

theorem SVec.Rep.set_tame {s : SVec T} {es : List (Nat × T)} (h : Rep s es) {i : Nat} (hi : i < s.l)
    (ht : i ≤ s.values.length ∨ ∀ k ∈ s.indices, k < i) (v : T) :
    ∃ s' es', s.setVec i v = .ok s' ∧ s'.l = s.l ∧ Rep s' es' ∧
      ∀ k, rowGet es' k = if k = i then norm v else rowGet es k := by
  rcases ht with ht | ht
  · rw [h.values, List.length_map] at ht
    obtain ⟨L, M, R, old, hs⟩ := rowSplit_exists h.sorted i
    obtain ⟨s', h1, h2, h3⟩ := h.setVec_ok hi hs ht v
    refine ⟨s', _, h1, h2, h3, fun k => ?_⟩
    split
    · rename_i hk; subst hk; exact (hs.put_split v).get
    · rename_i hk; exact hs.get_put_ne v hk
  · have hb : ∀ e ∈ es, e.1 < i := fun e he => ht _ (by rw [h.indices]; exact List.mem_map_of_mem he)
    obtain ⟨s', h1, h2, h3⟩ := h.push hi hb v
    exact ⟨s', _, h1, h2, h3, fun k => rowGet_push hb v k⟩

theorem SVec.runVec_tame {l : Nat} : ∀ (ops : List (Nat × T)) (s : SVec T) (es : List (Nat × T)) (d : Nat → T),
    s.Rep es → s.l = l → (∀ i, i < l → rowGet es i = norm (d i)) → (∀ o ∈ ops, o.1 < l) → s.Tame ops →
      ∃ s' es', s.runVec ops = .ok s' ∧ s'.l = l ∧ SVec.Rep s' es' ∧
        ∀ i, i < l → rowGet es' i = norm (lastWrite (d i) i ops) := by
  intro ops
  induction ops with
  | nil => intro s es d hr hl hd _ _; exact ⟨s, es, rfl, hl, hr, hd⟩
  | cons o ops ih =>
    intro s es d hr hl hd ho ht
    obtain ⟨s1, es1, h1, h2, h3, h4⟩ := hr.set_tame (i := o.1) (by rw [hl]; exact ho o (by simp)) ht.1 o.2
    obtain ⟨s2, es2, g1, g2, g3, g4⟩ := ih s1 es1 (fun i => if o.1 = i then o.2 else d i) h3 (h2.trans hl)
      (fun i hi => by
        rw [h4]
        by_cases hoi : o.1 = i
        · subst hoi; simp
        · rw [if_neg (fun h => hoi h.symm), if_neg hoi, hd i hi])
      (fun o' ho' => ho o' (by simp [ho'])) (ht.2 s1 h1)
    refine ⟨s2, es2, ?_, g2, g3, fun i hi => ?_⟩
    · simp only [SVec.runVec, h1, Out.ok_bind]; exact g1
    · rw [g4 i hi]; rfl

/-- C04, full statement: false. Writing position 5 of an empty sparse vector of length 6 and
reading it back gives 0; writing it again stores it twice. -/
theorem C04_refuted :
    ¬ (∀ (l : Nat) (ops : List (Nat × ℤ)), (∀ o ∈ ops, o.1 < l) →
      ∃ s, (SVec.new l).runVec ops = .ok s ∧ ∀ i : Nat, i < l → s.atVec i = .ok (lastWrite 0 i ops)) := by
  intro h
  obtain ⟨s, h1, h2⟩ := h 6 [(5, 7)] (by simp)
  have e : (SVec.new 6 : SVec ℤ).runVec [(5, 7)] = .ok { l := 6, values := [7], indices := [5] } := by decide
  rw [e] at h1
  injection h1 with h1
  subst h1
  have := h2 5 (by decide)
  revert this
  decide

theorem C04_refuted_duplicate : (SVec.new 6 : SVec ℤ).runVec [(5, 7), (5, 8)] =
    .ok { l := 6, values := [7, 8], indices := [5, 5] } := by decide

/-- C04, the part that holds. After a tame history `AtVec(i)` is the last value written at `i` for
every `i` up to the number of stored entries, and 0 beyond that (missing from the full statement:
untame histories, and reads beyond the number of stored entries). -/
theorem C04_sparse_vector_partial (l : Nat) (ops : List (Nat × T))
    (hops : ∀ o ∈ ops, o.1 < l) (ht : (SVec.new l : SVec T).Tame ops) :
    ∃ s, (SVec.new l).runVec ops = .ok s ∧ s.l = l ∧
      (∀ i : Nat, i < l → i ≤ s.values.length → s.atVec i = .ok (norm (lastWrite 0 i ops))) ∧
      (∀ i : Nat, i < l → s.values.length < i → s.atVec i = .ok 0) := by
  obtain ⟨s, es, h1, h2, h3, h4⟩ := SVec.runVec_tame (l := l) ops (SVec.new l) [] (fun _ => 0)
    (SVec.rep_new l) rfl (fun i _ => by simp [rowGet, norm]) hops ht
  have hl : s.values.length = es.length := by rw [h3.values, List.length_map]
  refine ⟨s, h1, h2, fun i hi hle => ?_, fun i hi hlt => ?_⟩
  · rw [h3.atVec_ok (by rw [h2]; exact hi), if_pos (by rw [← hl]; exact hle), h4 i hi]
  · rw [h3.atVec_ok (by rw [h2]; exact hi), if_neg (by rw [← hl]; omega)]

/-- A tame history: filling from the front, then overwriting and removing. -/
example : (SVec.new 4 : SVec ℤ).Tame [(0, 5), (1, 6), (2, 7), (1, 0), (1, 9)] ∧
    (SVec.new 4 : SVec ℤ).runVec [(0, 5), (1, 6), (2, 7), (1, 0), (1, 9)] =
      .ok { l := 4, values := [5, 9, 7], indices := [0, 1, 2] } := by
  refine ⟨?_, by decide⟩
  refine ⟨by decide, fun s1 h1 => ?_⟩
  have e1 : s1 = { l := 4, values := [5], indices := [0] } := by
    have : (SVec.new 4 : SVec ℤ).setVec 0 5 = .ok { l := 4, values := [5], indices := [0] } := by decide
    exact (Out.ok.inj (this.symm.trans h1)).symm
  subst e1
  refine ⟨by decide, fun s2 h2 => ?_⟩
  have e2 : s2 = { l := 4, values := [5, 6], indices := [0, 1] } := by
    have : ({ l := 4, values := [5], indices := [0] } : SVec ℤ).setVec 1 6 =
      .ok { l := 4, values := [5, 6], indices := [0, 1] } := by decide
    exact (Out.ok.inj (this.symm.trans h2)).symm
  subst e2
  refine ⟨by decide, fun s3 h3 => ?_⟩
  have e3 : s3 = { l := 4, values := [5, 6, 7], indices := [0, 1, 2] } := by
    have : ({ l := 4, values := [5, 6], indices := [0, 1] } : SVec ℤ).setVec 2 7 =
      .ok { l := 4, values := [5, 6, 7], indices := [0, 1, 2] } := by decide
    exact (Out.ok.inj (this.symm.trans h3)).symm
  subst e3
  refine ⟨by decide, fun s4 h4 => ?_⟩
  have e4 : s4 = { l := 4, values := [5, 7], indices := [0, 2] } := by
    have : ({ l := 4, values := [5, 6, 7], indices := [0, 1, 2] } : SVec ℤ).setVec 1 0 =
      .ok { l := 4, values := [5, 7], indices := [0, 2] } := by decide
    exact (Out.ok.inj (this.symm.trans h4)).symm
  subst e4
  exact ⟨by decide, fun _ _ => trivial⟩

/-! ## C50: enumerating a sparse vector -/

/-- C50 for every reachable sparse vector, however it was filled: `Enumerate` delivers `Values()`
entries, each in range and non-zero, without a panic, and stops. -/
theorem C50_enumerate_safe [GoStore T] {s : SVec T} (h : Reach (.svec s)) :
    ∃ es : List (Nat × Nat × T), Yields SVec.Iter.hasNext s.step s.iter es ∧
      es.length = s.values.length ∧
      ∀ e ∈ es, e.1 < s.l ∧ e.2.1 = 0 ∧ isZero e.2.2 = false := by
  have hw := h.weak
  have e1 : s.indices = (s.indices.zip s.values).map Prod.fst := by
    rw [List.map_fst_zip (by rw [hw.len])]
  have e2 : s.values = (s.indices.zip s.values).map Prod.snd := by
    rw [List.map_snd_zip (by rw [hw.len])]
  have hlen : (s.indices.zip s.values).length = s.values.length := by simp [hw.len]
  have := SVec.yields_aux s (s.indices.zip s.values) e1 e2 s.values.length 0 s.iter (by omega) rfl
    (by simp [SVec.iter, hw.len])
  refine ⟨_, this, by simp [hw.len], ?_⟩
  intro e he
  obtain ⟨x, hx, rfl⟩ := List.mem_map.1 he
  have hx' : x ∈ s.indices.zip s.values := by simpa using hx
  exact ⟨hw.bound _ (List.of_mem_zip hx').1, rfl, hw.nz _ (List.of_mem_zip hx').2⟩

/-- C50, full statement (each position once): false. -/
theorem C50_refuted : ∃ s : SVec ℤ, Reach (.svec s) ∧
    Yields SVec.Iter.hasNext s.step s.iter [(5, 0, 7), (5, 0, 8)] := by
  refine ⟨{ l := 6, values := [7, 8], indices := [5, 5] }, ?_, ?_⟩
  · refine Reach.call (m := .svec ({ l := 6, values := [7], indices := [5] } : SVec ℤ)) (.set 5 0 8) ?_ (by decide)
    exact Reach.call (m := .svec (SVec.new 6 : SVec ℤ)) (.set 5 0 7) (Reach.newSVec 6) (by decide)
  · refine ⟨by decide, { size := 2, last := 1, old := 0 }, by decide, by decide,
      { size := 2, last := 2, old := 1 }, by decide, by unfold Yields; decide⟩

/-- C50, the part that holds: after a tame history the enumeration is exactly the list of non-zero
last writes, in increasing position, each once. -/
theorem C50_enumerate_tame_partial [GoStore T] (l : Nat) (ops : List (Nat × T))
    (hops : ∀ o ∈ ops, o.1 < l) (ht : (SVec.new l : SVec T).Tame ops) :
    ∃ s, (SVec.new l).runVec ops = .ok s ∧
      Yields SVec.Iter.hasNext s.step s.iter
        (((List.range l).filter (fun i => !isZero (lastWrite 0 i ops))).map
          (fun i => (i, 0, lastWrite 0 i ops))) := by
    obtain ⟨s, es, h1, h2, h3, h4⟩ := SVec.runVec_tame (l := l) ops (SVec.new l) [] (fun _ => 0) (SVec.rep_new l) rfl
      (fun i _ => by simp [rowGet, norm]) hops ht
    refine ⟨s, h1, ?_⟩
    have h5 := h3.yields
    rw [row_eq_nz h3.sorted (fun e he => by have := h3.bound e he; rw [h2] at this; exact this) h3.nz,
      nz_map] at h5
    have e0 : ∀ i, i < l → (!isZero (rowGet es i)) = !isZero (lastWrite 0 i ops) := by
      intro i hi
      rw [h4 i hi]
      unfold norm
      split
      · rename_i h; rw [h, isZero_zero]
      · rfl
    have e1 : (List.range l).filter (fun i => !isZero (rowGet es i)) =
        (List.range l).filter (fun i => !isZero (lastWrite 0 i ops)) :=
      List.filter_congr (fun i hi => e0 i (by simpa using hi))
    rw [e1] at h5
    have e2 : ((List.range l).filter (fun i => !isZero (lastWrite 0 i ops))).map
          (fun i => (i, 0, rowGet es i)) =
        ((List.range l).filter (fun i => !isZero (lastWrite 0 i ops))).map
          (fun i => (i, 0, lastWrite 0 i ops)) := by
      apply List.map_congr_left
      intro i hi
      obtain ⟨hi1, hi2⟩ := List.mem_filter.1 hi
      rw [h4 i (by simpa using hi1)]
      unfold norm
      rw [if_neg (by simpa using hi2)]
    rw [e2] at h5
    exact h5

end GB
