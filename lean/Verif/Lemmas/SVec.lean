import Verif.Lemmas.CSR2
import Verif.Lemmas.CSRIter
import Verif.Model.SVec

/-!
# Sparse vectors
-/

namespace GB

set_option linter.unusedSectionVars false

variable {T : Type} [GoNum T]

namespace SVec

/-- `s` stores exactly the entries `es`, sorted by position, without stored zeros. -/
structure Rep (s : SVec T) (es : List (Nat × T)) : Prop where
  indices : s.indices = es.map Prod.fst
  values : s.values = es.map Prod.snd
  sorted : RowSorted es
  bound : ∀ e ∈ es, e.1 < s.l
  nz : ∀ e ∈ es, isZero e.2 = false

theorem rep_new (l : Nat) : Rep (new l : SVec T) [] := by
  constructor <;> simp [new, newL, RowSorted]

theorem search_eq (xs : List Nat) (i : Nat) : ∀ fuel s e,
    search xs i fuel s e = (CSR.search xs i fuel s e >>= fun p => .ok p.1) := by
  intro fuel
  induction fuel with
  | zero => intro s e; unfold search CSR.search; split <;> rfl
  | succ fuel ih =>
    intro s e
    unfold search CSR.search
    split
    · simp only [ih, bind_assoc]
      congr 1
      funext x
      split
      · rfl
      · split <;> rfl
    · rfl

theorem Rep.index_ok {s : SVec T} {es : List (Nat × T)} (h : Rep s es) {i : Nat}
    {L M R : List (Nat × T)} {old : T} (hs : RowSplit es L M R i old) (hi : i ≤ es.length) :
    s.index i = .ok (L.length, es.length) := by
  have hlen : s.indices.length = es.length := by rw [h.indices, List.length_map]
  have hel : es.length = L.length + M.length + R.length := by rw [hs.eq]; simp; omega
  unfold index
  simp only [hlen]
  rw [if_neg (by omega), search_eq]
  have hL : ∀ k, k < L.length → (hk : k < s.indices.length) → s.indices[k] < i := by
    intro k h2 hk
    have : s.indices[k] = L[k].1 := by
      simp only [h.indices, hs.eq, List.map_append, List.append_assoc]
      rw [List.getElem_append_left (by simpa using h2)]
      simp
    rw [this]; exact hs.left _ (List.getElem_mem _)
  have hR : ∀ k, L.length + M.length ≤ k → (hk : k < s.indices.length) → i < s.indices[k] := by
    intro k h1 hk
    have : s.indices[k] = (R[k - (L.length + M.length)]'(by omega)).1 := by
      simp only [h.indices, hs.eq, List.map_append]
      rw [List.getElem_append_right (by simp; omega)]
      simp
    rw [this]; exact hs.right _ (List.getElem_mem _)
  have hMlen : M.length ≤ 1 := by rcases hs.mid with ⟨rfl, _⟩ | rfl <;> simp
  have hM : ∀ k, L.length = k → k < L.length + M.length → (hk : k < s.indices.length) →
      s.indices[k] = i := by
    intro k hk1 hk2 hk
    subst hk1
    rcases hs.mid with ⟨rfl, _⟩ | rfl
    · simp at hk2
    · simp only [h.indices, hs.eq]
      simp
  obtain ⟨e', h1, -⟩ := CSR.search_ok s.indices i L.length 0 es.length (by omega)
    (fun k _ h2 hk => hL k h2 hk)
    (by
      intro k h1 h2 hk
      by_cases h3 : L.length + M.length ≤ k
      · have := hR k h3 hk; omega
      · have := hM k (by omega) (by omega) hk; omega)
    (by
      intro k h1 h2 hk
      exact hR k (by omega) hk)
    es.length 0 es.length (by omega) (by omega) (by omega) (by omega) (by omega)
    (by intro h1 h2; omega)
  rw [h1]
  rfl

theorem Rep.index_gt {s : SVec T} {es : List (Nat × T)} (h : Rep s es) {i : Nat}
    (hi : es.length < i) : s.index i = .ok (es.length, es.length) := by
  unfold index
  have hlen : s.indices.length = es.length := by rw [h.indices, List.length_map]
  simp only [hlen]
  rw [if_pos (by omega)]

/-- `AtVec`: right for positions not above the number of stored entries, `0` above. -/
theorem Rep.atVec_ok {s : SVec T} {es : List (Nat × T)} (h : Rep s es) {i : Nat} (hl : i < s.l) :
    s.atVec i = .ok (if i ≤ es.length then rowGet es i else 0) := by
  unfold atVec
  simp only [inRange_natCast, hl, decide_true, if_true, Int.toNat_natCast]
  by_cases hi : i ≤ es.length
  · rw [if_pos hi]
    obtain ⟨L, M, R, old, hs⟩ := rowSplit_exists h.sorted i
    rw [h.index_ok hs hi, hs.get]
    simp only [Out.ok_bind]
    have hlen : s.indices.length = es.length := by rw [h.indices, List.length_map]
    have hvlen : s.values.length = es.length := by rw [h.values, List.length_map]
    by_cases hlt : L.length < es.length
    · rw [if_pos hlt, idx_ok (by omega)]
      simp only [Out.ok_bind]
      rcases hs.mid with ⟨rfl, rfl⟩ | rfl
      · have hR : 0 < R.length := by
          have := congrArg List.length hs.eq
          simp at this; omega
        have : s.indices[L.length]'(by omega) = R[0].1 := by
          simp only [h.indices, hs.eq, List.map_append]
          rw [List.getElem_append_right (by simp)]
          simp
        have h2 := hs.right R[0] (List.getElem_mem _)
        rw [if_neg (by omega)]
      · have : s.indices[L.length]'(by omega) = i := by
          simp only [h.indices, hs.eq]; simp
        rw [if_pos this, idx_ok (by omega)]
        congr 1
        simp only [h.values, hs.eq]; simp
    · rw [if_neg hlt]
      rcases hs.mid with ⟨rfl, rfl⟩ | rfl
      · rfl
      · have := congrArg List.length hs.eq
        simp at this; omega
  · rw [if_neg hi, h.index_gt (by omega)]
    simp

/-- `SetVec` at a position not above the number of stored entries. -/
theorem Rep.setVec_ok {s : SVec T} {es : List (Nat × T)} (h : Rep s es) {i : Nat} (hl : i < s.l)
    {L M R : List (Nat × T)} {old : T} (hs : RowSplit es L M R i old) (hi : i ≤ es.length) (v : T) :
    ∃ s', s.setVec i v = .ok s' ∧ s'.l = s.l ∧ Rep s' (L ++ midOf i v ++ R) := by
  have hlen : s.indices.length = es.length := by rw [h.indices, List.length_map]
  have hvlen : s.values.length = es.length := by rw [h.values, List.length_map]
  have hsort := hs.sorted_put h.sorted v
  have hb : ∀ e ∈ L ++ midOf i v ++ R, e.1 < s.l := by
    intro e he
    simp only [List.mem_append] at he
    rcases he with (he | he) | he
    · exact h.bound e (by rw [hs.eq]; simp [he])
    · unfold midOf at he
      split at he
      · simp at he
      · simp at he; rw [he]; exact hl
    · exact h.bound e (by rw [hs.eq]; simp [he])
  have hn : ∀ e ∈ L ++ midOf i v ++ R, isZero e.2 = false := by
    intro e he
    simp only [List.mem_append] at he
    rcases he with (he | he) | he
    · exact h.nz e (by rw [hs.eq]; simp [he])
    · unfold midOf at he
      split at he
      · simp at he
      · rename_i hz
        simp at he; rw [he]; simpa using hz
    · exact h.nz e (by rw [hs.eq]; simp [he])
  have hind : s.indices = L.map Prod.fst ++ (M.map Prod.fst ++ R.map Prod.fst) := by
    rw [h.indices, hs.eq]; simp
  have hval : s.values = L.map Prod.snd ++ (M.map Prod.snd ++ R.map Prod.snd) := by
    rw [h.values, hs.eq]; simp
  unfold setVec
  simp only [inRange_natCast, hl, decide_true, if_true, Int.toNat_natCast]
  rw [h.index_ok hs hi]
  simp only [Out.ok_bind]
  have hins : M = [] → ∃ s', s.insert L.length i v = .ok s' ∧ s'.l = s.l ∧
      Rep s' (L ++ midOf i v ++ R) := by
    intro hM
    subst hM
    unfold insert
    by_cases hz : isZero v = true
    · rw [if_pos hz]
      refine ⟨s, rfl, rfl, ?_⟩
      have : L ++ midOf i v ++ R = es := by simp [midOf, hz, hs.eq]
      rw [this]; exact h
    · rw [if_neg hz]
      have e1 := splice_append (L.map Prod.fst) (R.map Prod.fst) i
      have e2 := splice_append (L.map Prod.snd) (R.map Prod.snd) v
      rw [List.length_map] at e1 e2
      simp only [hind, hval, List.map_nil, List.nil_append, e1, e2, Out.ok_bind]
      refine ⟨_, rfl, rfl, ?_, ?_, hsort, hb, hn⟩ <;> simp [midOf, hz]
  by_cases hlt : L.length < es.length
  · rw [if_pos hlt, idx_ok (by omega)]
    simp only [Out.ok_bind]
    rcases hs.mid with ⟨rfl, rfl⟩ | rfl
    · have hR : 0 < R.length := by
        have := congrArg List.length hs.eq
        simp at this; omega
      have : s.indices[L.length]'(by omega) = R[0].1 := by
        simp only [h.indices, hs.eq, List.map_append]
        rw [List.getElem_append_right (by simp)]
        simp
      have h2 := hs.right R[0] (List.getElem_mem _)
      rw [if_neg (by omega)]
      exact hins rfl
    · have : s.indices[L.length]'(by omega) = i := by
        simp only [h.indices, hs.eq]; simp
      rw [if_pos this]
      by_cases hz : isZero v = true
      · rw [if_pos hz]
        unfold remove
        have e1 := unsplice_append (L.map Prod.fst) (R.map Prod.fst) i
        have e2 := unsplice_append (L.map Prod.snd) (R.map Prod.snd) old
        rw [List.length_map] at e1 e2
        simp only [hind, hval, List.map_cons, List.map_nil, List.cons_append, List.nil_append, e1, e2,
          Out.ok_bind]
        refine ⟨_, rfl, rfl, ?_, ?_, hsort, hb, hn⟩ <;> simp [midOf, hz]
      · rw [if_neg hz]
        have e2 := setIdx_append (L.map Prod.snd) (R.map Prod.snd) old v
        rw [List.length_map] at e2
        simp only [hval, List.map_cons, List.map_nil, List.cons_append, List.nil_append, e2,
          Out.ok_bind]
        refine ⟨_, rfl, rfl, ?_, ?_, hsort, hb, hn⟩ <;> simp [midOf, hz, hind]
  · rw [if_neg hlt]
    apply hins
    rcases hs.mid with ⟨rfl, rfl⟩ | rfl
    · rfl
    · have := congrArg List.length hs.eq
      simp at this; omega

/-- `SetVec` above the number of stored entries: the entry is appended, wherever it belongs. -/
theorem Rep.setVec_gt {s : SVec T} {es : List (Nat × T)} (h : Rep s es) {i : Nat} (hl : i < s.l)
    (hi : es.length < i) (v : T) :
    s.setVec i v = .ok { s with indices := s.indices ++ (midOf i v).map Prod.fst,
                                values := s.values ++ (midOf i v).map Prod.snd } := by
  have hlen : s.indices.length = es.length := by rw [h.indices, List.length_map]
  have hvlen : s.values.length = es.length := by rw [h.values, List.length_map]
  unfold setVec
  simp only [inRange_natCast, hl, decide_true, if_true, Int.toNat_natCast]
  rw [h.index_gt hi]
  simp only [Out.ok_bind, Nat.lt_irrefl, if_false]
  unfold insert
  by_cases hz : isZero v = true
  · rw [if_pos hz]; simp [midOf, hz]
  · rw [if_neg hz]
    have e1 := splice_append s.indices [] i
    have e2 := splice_append s.values [] v
    rw [hlen, List.append_nil] at e1
    rw [hvlen, List.append_nil] at e2
    simp [e1, e2, midOf, hz]

/-- Writing above every stored position appends. -/
theorem Rep.push {s : SVec T} {es : List (Nat × T)} (h : Rep s es) {i : Nat} (hl : i < s.l)
    (hi : ∀ e ∈ es, e.1 < i) (v : T) :
    ∃ s', s.setVec i v = .ok s' ∧ s'.l = s.l ∧ Rep s' (es ++ midOf i v) := by
  have hs : RowSplit es es [] [] i 0 := ⟨by simp, hi, by simp, Or.inl ⟨rfl, rfl⟩⟩
  by_cases hle : i ≤ es.length
  · obtain ⟨s', h1, h2, h3⟩ := h.setVec_ok hl hs hle v
    exact ⟨s', h1, h2, by simpa using h3⟩
  · refine ⟨_, h.setVec_gt hl (by omega) v, rfl, ?_, ?_, ?_, ?_, ?_⟩
    · simp [h.indices]
    · simp [h.values]
    · have := hs.sorted_put h.sorted v; simpa using this
    · intro e he
      rcases List.mem_append.1 he with he | he
      · exact h.bound e he
      · unfold midOf at he; split at he
        · simp at he
        · simp at he; rw [he]; exact hl
    · intro e he
      rcases List.mem_append.1 he with he | he
      · exact h.nz e he
      · unfold midOf at he; split at he
        · simp at he
        · rename_i hz; simp at he; rw [he]; simpa using hz

theorem rowGet_push {es : List (Nat × T)} {i : Nat} (hi : ∀ e ∈ es, e.1 < i) (v : T) (j : Nat) :
    rowGet (es ++ midOf i v) j = if j = i then norm v else rowGet es j := by
  have hs : RowSplit es es [] [] i 0 := ⟨by simp, hi, by simp, Or.inl ⟨rfl, rfl⟩⟩
  by_cases hj : j = i
  · subst hj
    rw [if_pos rfl]
    have := (hs.put_split v).get
    simpa using this
  · rw [if_neg hj]
    have := hs.get_put_ne v hj
    simpa using this

/-- `Copy` of any sparse vector with as many indices as values. -/
theorem copy_eq (s : SVec T) (h : s.indices.length = s.values.length) : s.copy = .ok s := by
  unfold copy
  obtain ⟨m, h1, h2⟩ := loop_inv
    (f := fun i (v : SVec T) => do
      let x ← idx s.values i
      let vals ← setIdx v.values i x
      let y ← idx s.indices i
      let ind ← setIdx v.indices i y
      .ok { v with values := vals, indices := ind })
    (Inv := fun i m => m.l = s.l ∧
      m.values = s.values.take i ++ List.replicate (s.values.length - i) 0 ∧
      m.indices = s.indices.take i ++ List.replicate (s.indices.length - i) 0)
    s.values.length 0 (newL s.l s.indices.length) (by simp [newL, h])
    (by
      intro i m _ hi ⟨e0, e1, e2⟩
      have hi' : i < s.values.length := by omega
      have hi2 : i < s.indices.length := by omega
      simp only [idx_ok hi', idx_ok hi2, Out.ok_bind, e1, e2, copy_step _ _ hi', copy_step _ _ hi2]
      exact ⟨_, rfl, e0, rfl, rfl⟩)
  rw [h1]
  obtain ⟨e0, e1, e2⟩ := h2
  have e1' : m.values = s.values := by rw [e1]; simp
  have e2' : m.indices = s.indices := by rw [e2, ← h]; simp
  cases m; cases s
  simp only at e0 e1' e2'
  rw [e0, e1', e2']

theorem Rep.copy_ok {s : SVec T} {es : List (Nat × T)} (h : Rep s es) : s.copy = .ok s :=
  copy_eq s (by rw [h.indices, h.values]; simp)

/-- Iteration over any sparse vector with as many indices as values. -/
theorem yields_aux (s : SVec T) (es : List (Nat × T)) (hi : s.indices = es.map Prod.fst)
    (hv : s.values = es.map Prod.snd) : ∀ (n k : Nat) (it : Iter), n + k = es.length →
    it.last = k → it.size = es.length →
    Yields Iter.hasNext s.step it ((es.drop k).map (fun e => (e.1, 0, e.2))) := by
  intro n
  induction n with
  | zero =>
    intro k it hn h1 h2
    rw [List.drop_eq_nil_of_le (by omega)]
    simp [Yields, Iter.hasNext, h1, h2]; omega
  | succ n ih =>
    intro k it hn h1 h2
    have hk : k < es.length := by omega
    rw [List.drop_eq_getElem_cons hk, List.map_cons]
    refine ⟨by simp [Iter.hasNext, h1, h2, hk], it.next, ?_, ?_⟩
    · unfold step
      have e1 : idx s.indices it.next.old = .ok es[k].1 := by
        rw [idx_ok (by simp [hi, Iter.next, h1, hk])]
        simp only [hi, Iter.next, h1, List.getElem_map]
      have e2 : idx s.values it.next.old = .ok es[k].2 := by
        rw [idx_ok (by simp [hv, Iter.next, h1, hk])]
        simp only [hv, Iter.next, h1, List.getElem_map]
      simp only [e1, e2, Out.ok_bind]
    · exact ih (k + 1) it.next (by omega) (by simp [Iter.next, h1]) (by simp [Iter.next, h2])

theorem Rep.yields {s : SVec T} {es : List (Nat × T)} (h : Rep s es) :
    Yields Iter.hasNext s.step s.iter (es.map (fun e => (e.1, 0, e.2))) := by
  have := yields_aux s es h.indices h.values es.length 0 s.iter (by omega) rfl
    (by simp [iter, h.values])
  simpa using this

end SVec
end GB
