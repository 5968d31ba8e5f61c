import Verif.Lemmas.Mat

/-!
# Compressed formats: `Map` that stores zeros

The iterator of `Map` remembers where the current line (row of a CSR matrix, column of a CSC matrix)
ended when it was entered. Removing the last entry of a line does no harm, because the next line is
looked up anew; removing any other entry makes the iterator run one entry past the line.
-/

namespace GB

set_option linter.unusedSectionVars false

variable {T : Type} [GoNum T]

namespace CSR

/-- The entries still to be visited: `todo` in line `i - 1`, then the lines from `i` on. -/
def left (rows : List (List (Nat × T))) (i : Nat) (todo : List (Nat × T)) : List (Nat × Nat × T) :=
  todo.map (fun e => (i - 1, e.1, e.2)) ++ entriesFrom i (rows.drop i)

/-- The iterator has still to visit `todo` in line `i - 1`, then the lines from `i` on. -/
structure Left (rows : List (List (Nat × T))) (it : Iter) (i : Nat) (todo : List (Nat × T)) : Prop where
  r : it.r = (i : Int) - 1
  le : i ≤ rows.length
  size : it.size = it.last + todo.length + (rows.drop i).flatten.length
  pe : it.pointerEnd = it.pointerStart + todo.length
  part : todo = [] ∨ ∃ done, 0 < i ∧ rows[i - 1]? = some (done ++ todo) ∧
    it.pointerStart = offs rows (i - 1) + done.length
  col : ∀ e, todo.head? = some e → it.cIndex ≤ e.1

theorem Rep.left_init {s : CSR T} {rows : List (List (Nat × T))} (h : Rep s rows) :
    Left rows s.iter 0 [] ∧ left rows 0 [] = entriesFrom 0 rows := by
  refine ⟨⟨rfl, by omega, ?_, rfl, Or.inl rfl, by simp⟩, by simp [left]⟩
  simp [iter, h.values_length]

theorem left_length (rows : List (List (Nat × T))) (i : Nat) (todo : List (Nat × T)) :
    (left rows i todo).length = todo.length + (rows.drop i).flatten.length := by
  unfold left; rw [List.length_append, List.length_map, entriesFrom_length]

theorem Left.hasNext {rows : List (List (Nat × T))} {it : Iter} {i : Nat} {todo : List (Nat × T)}
    (h : Left rows it i todo) : it.hasNext = !(left rows i todo).isEmpty := by
  have := h.size
  have hl := left_length rows i todo
  unfold Iter.hasNext
  cases e : left rows i todo with
  | nil => rw [e] at hl; simp at hl ⊢; simp at this; omega
  | cons a l => rw [e] at hl; simp at hl ⊢; simp at this; omega

theorem offs_drop {α : Type} (rows : List (List α)) (i : Nat) :
    rows.flatten.length = offs rows i + (rows.drop i).flatten.length := by
  unfold offs
  conv => lhs; rw [← List.take_append_drop i rows]
  rw [List.flatten_append, List.length_append]

/-- First loop of `next`: to the next line that has an entry. -/
theorem Rep.skip_left {s : CSR T} {rows : List (List (Nat × T))} (h : Rep s rows) :
    ∀ (fuel : Nat) (it : Iter) (i : Nat), Left rows it i [] → (rows.drop i).flatten ≠ [] →
      s.r + 1 - i < fuel →
      ∃ it1 i1 todo, skip s fuel it = .ok it1 ∧ Left rows it1 i1 todo ∧ todo ≠ [] ∧
        left rows i1 todo = left rows i [] ∧ it1.last = it.last := by
  intro fuel
  induction fuel with
  | zero => intro it i _ _ hf; omega
  | succ fuel ih =>
    intro it i hit hne hf
    have hi : i < rows.length := by
      rcases Nat.lt_or_ge i rows.length with hi | hi
      · exact hi
      · rw [List.drop_eq_nil_of_le hi] at hne; exact absurd rfl hne
    have hir : i < s.r := by rw [← h.len]; exact hi
    have hdrop : rows.drop i = rows[i] :: rows.drop (i + 1) := List.drop_eq_getElem_cons hi
    unfold skip
    rw [if_pos (by have := hit.pe; simp at this; omega)]
    have hr := hit.r
    have hr1 : it.r + 1 = (i : Int) := by omega
    have hr2 : (i : Int) + 1 = ((i + 1 : Nat) : Int) := by omega
    have htot := offs_drop rows i
    have hpos : 0 < (rows.drop i).flatten.length := List.length_pos_iff.2 hne
    have hk : offs rows i < s.cols.length := by rw [h.cols_length]; omega
    simp only [hr1, hr2, idxI_nat, h.rowStart_get (Nat.le_of_lt hir), h.rowStart_get hir, Out.ok_bind,
      idx_ok hk]
    have hs := offs_succ rows i hi
    have hsz := hit.size
    rw [hdrop, List.flatten_cons, List.length_append] at hsz
    have hL : Left rows { it with r := (i : Int), pointerStart := offs rows i, pointerEnd := offs rows (i + 1), cIndex := s.cols[offs rows i] }
        (i + 1) rows[i] := by
      refine ⟨by simp, hi, by simp only; simp at hsz; simp; omega, by simp only; omega, Or.inr ⟨[], by omega, ?_, ?_⟩, ?_⟩
      · simp [hi]
      · simp
      · intro e he
        simp only
        apply Nat.le_of_eq
        cases hrow : rows[i] with
        | nil => rw [hrow] at he; simp at he
        | cons x l =>
          rw [hrow] at he
          simp at he
          subst he
          have e1 : s.cols = (rows.take i).flatten.map Prod.fst ++ x.1 :: (l ++ (rows.drop (i + 1)).flatten).map Prod.fst := by
            rw [h.cols, h.flat hir, hrow]; simp
          have := idx_append ((rows.take i).flatten.map Prod.fst) ((l ++ (rows.drop (i + 1)).flatten).map Prod.fst) x.1
          rw [← e1, List.length_map] at this
          have h2 := idx_ok hk
          unfold offs at h2 hk
          rw [h2] at this
          injection this
    have hleft : left rows (i + 1) rows[i] = left rows i [] := by
      simp only [left, List.map_nil, List.nil_append]
      rw [hdrop]; simp [entriesFrom]
    by_cases hemp : rows[i] = []
    · rw [hemp] at hL hleft
      rw [hdrop, hemp] at hne
      obtain ⟨it1, i1, todo, k1, k2, k3, k4, k5⟩ := ih _ (i + 1) hL (by simpa using hne) (by omega)
      exact ⟨it1, i1, todo, k1, k2, k3, k4.trans hleft, k5⟩
    · obtain ⟨f', rfl⟩ : ∃ k, fuel = k + 1 := ⟨fuel - 1, by omega⟩
      refine ⟨_, i + 1, rows[i], ?_, hL, hemp, hleft, rfl⟩
      unfold skip
      have : 0 < (rows[i]).length := List.length_pos_iff.2 hemp
      rw [if_neg (by show ¬ offs rows i = offs rows (i + 1); omega)]

/-- `Next` visits the entries in order, and this is where it stands. -/
theorem Rep.step_left {s : CSR T} {rows : List (List (Nat × T))} (h : Rep s rows) {it : Iter} {i : Nat}
    {todo : List (Nat × T)} {e : Nat × Nat × T} {rest : List (Nat × Nat × T)}
    (hit : Left rows it i todo) (he : left rows i todo = e :: rest) :
    ∃ it' done todo', s.step it = .ok (it', e) ∧ Left rows it' (e.1 + 1) todo' ∧
      left rows (e.1 + 1) todo' = rest ∧ rows[e.1]? = some (done ++ e.2 :: todo') ∧
      it'.index = offs rows e.1 + done.length ∧ it'.pointerStart = it'.index + 1 ∧
      it'.cIndex = e.2.1 + 1 ∧ it'.last = it.last + 1 := by
  obtain ⟨it1, i1, todo1, g1, g2, g3, g4, g5⟩ : ∃ it1 i1 todo1, skip s (s.rowStart.length + 1) it = .ok it1 ∧
      Left rows it1 i1 todo1 ∧ todo1 ≠ [] ∧ left rows i1 todo1 = e :: rest ∧ it1.last = it.last := by
    by_cases ht : todo = []
    · subst ht
      have hne : (rows.drop i).flatten ≠ [] := by
        intro hc
        have := left_length rows i []
        rw [he, hc] at this; simp at this
      obtain ⟨it1, i1, todo1, k1, k2, k3, k4, k5⟩ := h.skip_left (s.rowStart.length + 1) it i hit hne
        (by rw [h.rowStart_length]; omega)
      exact ⟨it1, i1, todo1, k1, k2, k3, k4.trans he, k5⟩
    · refine ⟨it, i, todo, ?_, hit, ht, he, rfl⟩
      unfold skip
      have : 0 < todo.length := List.length_pos_iff.2 ht
      have := hit.pe
      rw [if_neg (by omega)]
  obtain ⟨x, todo', rfl⟩ := List.exists_cons_of_ne_nil g3
  simp only [left, List.map_cons, List.cons_append] at g4
  injection g4 with g4 g6
  subst g4
  rcases g2.part with hp | ⟨done, p1, p2, p3⟩
  · simp at hp
  have hi1 : i1 - 1 < rows.length := by have := g2.le; omega
  have hi1' : i1 - 1 < s.r := by rw [← h.len]; exact hi1
  have hrow : rows[i1 - 1] = done ++ x :: todo' := by
    rw [List.getElem?_eq_getElem hi1] at p2; exact Option.some.inj p2
  have e1 : s.cols = ((rows.take (i1 - 1)).flatten ++ done).map Prod.fst ++ x.1 :: (todo' ++ (rows.drop (i1 - 1 + 1)).flatten).map Prod.fst := by
    rw [h.cols, h.flat hi1', hrow]; simp
  have e2 : s.values = ((rows.take (i1 - 1)).flatten ++ done).map Prod.snd ++ x.2 :: (todo' ++ (rows.drop (i1 - 1 + 1)).flatten).map Prod.snd := by
    rw [h.values, h.flat hi1', hrow]; simp
  have hlen : it1.pointerStart = ((rows.take (i1 - 1)).flatten ++ done).length := by
    rw [p3]; simp [offs]
  have hk : it1.pointerStart < s.cols.length := by
    simp only [e1, hlen, List.length_append, List.length_map, List.length_cons]; omega
  have hck : s.cols[it1.pointerStart] = x.1 := by
    have := idx_append (((rows.take (i1 - 1)).flatten ++ done).map Prod.fst) ((todo' ++ (rows.drop (i1 - 1 + 1)).flatten).map Prod.fst) x.1
    rw [← e1, List.length_map, ← hlen, idx_ok hk] at this
    injection this
  have hvk : idx s.values it1.pointerStart = .ok x.2 := by
    have := idx_append (((rows.take (i1 - 1)).flatten ++ done).map Prod.snd) ((todo' ++ (rows.drop (i1 - 1 + 1)).flatten).map Prod.snd) x.2
    rwa [← e2, List.length_map, ← hlen] at this
  have hpe := g2.pe
  have hcol := g2.col x rfl
  have hsz := g2.size
  simp only [List.length_cons] at hpe hsz
  have hgetD : s.cols.getD it1.pointerStart 0 = x.1 := by rw [← hck]; simp [List.getD, hk]
  have hwalk := walk_ok hk (s.cols.getD it1.pointerStart 0 + 1 - it1.cIndex + 1) it1 rfl (by omega)
    (by rw [hck]; exact hcol) (by rw [hgetD, hck]; omega)
  have hr := g2.r
  have hi1e : i1 - 1 + 1 = i1 := by omega
  refine ⟨⟨it1.size, it1.last + 1, x.1, it1.r, x.1 + 1, it1.pointerStart, it1.pointerStart + 1, it1.pointerEnd⟩,
    done, todo', ?_, ⟨?_, ?_, ?_, ?_, ?_, ?_⟩, ?_, ?_, ?_, rfl, rfl, ?_⟩
  · unfold step next
    simp only [g1, Out.ok_bind, hwalk, hvk, hck]
    have : it1.r.toNat = i1 - 1 := by omega
    rw [this]
  · simp only; omega
  · simp only [hi1e]; exact g2.le
  · simp only [hi1e]; omega
  · simp only; omega
  · refine Or.inr ⟨done ++ [x], by omega, ?_, ?_⟩
    · simp [p2]
    · simp only [List.length_append, List.length_singleton]; simp; omega
  · intro y hy
    cases todo' with
    | nil => simp at hy
    | cons y' l =>
      simp at hy; subst hy
      simp only
      have := h.sorted _ (List.getElem_mem hi1)
      rw [hrow] at this
      have := (List.pairwise_append.1 this).2.1
      exact (List.pairwise_cons.1 this).1 _ (by simp)
  · simp only [left, hi1e]; simpa using g6
  · exact p2
  · simp only; omega
  · simp only; omega

/-- `Map` at the entry where the iterator stands: the value is stored, or the entry removed. -/
theorem Rep.put_split {s : CSR T} {rows : List (List (Nat × T))} (h : Rep s rows) {it : Iter}
    {i j : Nat} {old v : T} {L R : List (Nat × T)} (hrow : rows[i]? = some (L ++ (j, old) :: R))
    (hidx : it.index = offs rows i + L.length) (hr : isZero v = true → it.r = (i : Int)) :
    ∃ s', s.put it v = .ok s' ∧ Rep s' (rows.set i (L ++ midOf j v ++ R)) ∧ s'.r = s.r ∧ s'.c = s.c ∧
      cellOf (rows.set i (L ++ midOf j v ++ R)) i j = norm v ∧
      ∀ a b, a < s.r → ¬ (a = i ∧ b = j) → cellOf (rows.set i (L ++ midOf j v ++ R)) a b = cellOf rows a b := by
  have hi' : i < rows.length := by
    rcases Nat.lt_or_ge i rows.length with hi | hi
    · exact hi
    · rw [List.getElem?_eq_none hi] at hrow; simp at hrow
  have hi : i < s.r := by rw [← h.len]; exact hi'
  have hrow' : rows[i] = L ++ (j, old) :: R := by
    rw [List.getElem?_eq_getElem hi'] at hrow; exact Option.some.inj hrow
  have hso := h.sorted _ (List.getElem_mem hi')
  rw [hrow'] at hso
  have hp := List.pairwise_append.1 hso
  have hj : j < s.c := h.bound _ (List.getElem_mem hi') (j, old) (by rw [hrow']; simp)
  have hs : RowSplit rows[i] L [(j, old)] R j old :=
    ⟨by rw [hrow']; simp, fun e he => hp.2.2 e he (j, old) (by simp),
      fun e he => (List.pairwise_cons.1 hp.2.1).1 e he, Or.inr rfl⟩
  obtain ⟨s', a, b, k1, k2, k3, k4, -, -⟩ := h.updateRP_ok hi hj hs (fun _ => ((), v))
  refine ⟨s', ?_, k2, k3, k4, ?_, ?_⟩
  rotate_left
  · rw [k2.cell_eq (by omega)]
    simp only [List.getElem_set_self]
    exact (hs.put_split _).get
  · intro i' j' hi'' hne
    rw [k2.cell_eq (by omega), h.cell_eq hi'']
    rw [List.getElem_set]
    by_cases hc : i = i'
    · subst hc
      rw [if_pos rfl]
      exact hs.get_put_ne _ (by intro hj; exact hne ⟨rfl, hj⟩)
    · simp only [hc, if_false]
  obtain ⟨e', h1, h2⟩ := h.columnIndex_ok hi hs
  unfold updateRP at k1
  simp only [inRange_natCast, hi, hj, decide_true, if_true, Int.toNat_natCast, h1, h2, Out.ok_bind] at k1
  simp only [ne_eq, List.cons_ne_self, not_false_eq_true, decide_true, if_true] at k1
  have hv : idx s.values (offs rows i + L.length) = .ok old := by
    have e2 : s.values = ((rows.take i).flatten ++ L).map Prod.snd ++ old :: (R ++ (rows.drop (i + 1)).flatten).map Prod.snd := by
      rw [h.values, h.flat hi, hrow']; simp
    have := idx_append (((rows.take i).flatten ++ L).map Prod.snd) ((R ++ (rows.drop (i + 1)).flatten).map Prod.snd) old
    rw [← e2, List.length_map, List.length_append] at this
    exact this
  rw [hv] at k1
  simp only [Out.ok_bind] at k1
  unfold put
  rw [hidx]
  by_cases hz : isZero v = true
  · rw [if_pos hz] at k1
    simp only [hz, Bool.not_true, Bool.false_eq_true, if_false]
    have e : it.r.toNat = i := by rw [hr hz]; simp
    rw [e]
    cases hrem : s.remove (offs rows i + L.length) i with
    | ok x => rw [hrem] at k1; simp only [Out.ok_bind] at k1; injection k1 with k1; injection k1 with _ k1; injection k1 with k1; rw [k1]
    | panic => rw [hrem] at k1; simp at k1
    | hang => rw [hrem] at k1; simp at k1
  · rw [if_neg hz] at k1
    have hz' : isZero v = false := by simpa using hz
    simp only [hz', Bool.not_false, if_true]
    cases hrem : setIdx s.values (offs rows i + L.length) v with
    | ok x => rw [hrem] at k1; simp only [Out.ok_bind] at k1; injection k1 with k1; injection k1 with _ k1; injection k1 with k1; rw [Out.ok_bind, k1]
    | panic => rw [hrem] at k1; simp at k1
    | hang => rw [hrem] at k1; simp at k1

theorem Left.set {rows : List (List (Nat × T))} {it : Iter} {i j : Nat} {old v : T}
    {L R : List (Nat × T)} (h : Left rows it (i + 1) R) (_ : rows[i]? = some (L ++ (j, old) :: R))
    (hps : it.pointerStart = offs rows i + L.length + 1) (hz : isZero v = false ∨ R = []) :
    Left (rows.set i (L ++ midOf j v ++ R)) it (i + 1) R ∧
      left (rows.set i (L ++ midOf j v ++ R)) (i + 1) R = left rows (i + 1) R := by
  have hi' : i < rows.length := h.le
  have hd : (rows.set i (L ++ midOf j v ++ R)).drop (i + 1) = rows.drop (i + 1) :=
    List.drop_set_of_lt (by omega)
  refine ⟨⟨h.r, by rw [List.length_set]; exact h.le, by rw [hd]; exact h.size, h.pe, ?_, h.col⟩, ?_⟩
  · by_cases hR : R = []
    · exact Or.inl hR
    · have hz' : isZero v = false := by rcases hz with hz | hz; exact hz; exact absurd hz hR
      refine Or.inr ⟨L ++ [(j, v)], by omega, ?_, ?_⟩
      · simp [midOf, hz', hi']
      · have := offs_set rows i (L ++ midOf j v ++ R) hi' i (by omega)
        simp only [Nat.lt_irrefl, if_false] at this
        simp only [Nat.add_sub_cancel, List.length_append, List.length_singleton]
        omega
  · unfold left; rw [hd]

/-- `for it := m.Map(); it.HasNext(); { it.Map(f) }` on the CSR arrays. -/
def drive (f : Nat → Nat → T → T) : Nat → CSR T → Iter → Out (CSR T)
  | 0, s, it => if it.hasNext then .hang else .ok s
  | n + 1, s, it =>
    if it.hasNext then do
      let (it', r, c, v) ← s.step it
      let s' ← s.put it' (f r c v)
      drive f n s' it'
    else .ok s

/-- A piece of the loop: as long as the zeros are stored at the ends of the lines only, each entry
is replaced, and the rest of the loop goes on from a sound state. -/
theorem Rep.drive_prefix (f : Nat → Nat → T → T) : ∀ (pre post : List (Nat × Nat × T)) (n : Nat)
    (s : CSR T) (rows : List (List (Nat × T))) (it : Iter) (i : Nat) (todo : List (Nat × T)),
    Rep s rows → Left rows it i todo → left rows i todo = pre ++ post →
    pre.Pairwise (fun a b => ¬ (a.1 = b.1 ∧ a.2.1 = b.2.1)) →
    (∀ k (_ : k < pre.length), isZero (f pre[k].1 pre[k].2.1 pre[k].2.2) = true →
      ∀ x ∈ pre.drop (k + 1) ++ post, x.1 ≠ pre[k].1) →
    ∃ s' rows' it' i' todo', drive f (n + pre.length) s it = drive f n s' it' ∧ Rep s' rows' ∧
      s'.r = s.r ∧ s'.c = s.c ∧ Left rows' it' i' todo' ∧ left rows' i' todo' = post ∧
      (∀ e ∈ pre, cellOf rows' e.1 e.2.1 = norm (f e.1 e.2.1 e.2.2)) ∧
      (∀ a b, a < s.r → (∀ e ∈ pre, ¬ (a = e.1 ∧ b = e.2.1)) → cellOf rows' a b = cellOf rows a b) := by
  intro pre
  induction pre with
  | nil =>
    intro post n s rows it i todo h hit hl _ _
    exact ⟨s, rows, it, i, todo, rfl, h, rfl, rfl, hit, hl, by simp, fun _ _ _ _ => rfl⟩
  | cons e pre ih =>
    intro post n s rows it i todo h hit hl hd hz
    have hl' : left rows i todo = e :: (pre ++ post) := hl
    obtain ⟨it1, done, todo1, g1, g2, g3, g4, g5, g6, -, -⟩ := h.step_left hit hl'
    have hn : it.hasNext = true := by rw [hit.hasNext, hl']; rfl
    have hd' := List.pairwise_cons.1 hd
    obtain ⟨s1, k1, k2, k3, k4, k5, k6⟩ := h.put_split (it := it1) (v := f e.1 e.2.1 e.2.2) g4 g5
      (fun _ => by rw [g2.r]; simp)
    have hlast : isZero (f e.1 e.2.1 e.2.2) = false ∨ todo1 = [] := by
      by_cases hzz : isZero (f e.1 e.2.1 e.2.2) = true
      · right
        have := hz 0 (by simp) hzz
        simp only [List.drop_succ_cons, List.drop_zero, List.getElem_cons_zero] at this
        rw [← g3] at this
        cases todo1 with
        | nil => rfl
        | cons y l => exact absurd rfl (this (e.1, y.1, y.2) (by simp [left]))
      · left; simpa using hzz
    obtain ⟨q1, q2⟩ := g2.set (v := f e.1 e.2.1 e.2.2) g4 (by rw [g6, g5]) hlast
    obtain ⟨s2, rows2, it2, i2, todo2, p1, p2, p3, p4, p5, p6, p7, p8⟩ := ih post n s1 _ it1 (e.1 + 1) todo1 k2 q1
      (q2.trans g3) hd'.2 (fun k hk hzk x hx => by
        have := hz (k + 1) (by simp; omega) (by simpa using hzk) x (by simpa using hx)
        simpa using this)
    have hes : e.1 < s.r := by
      have := g2.le; rw [h.len] at this; omega
    refine ⟨s2, rows2, it2, i2, todo2, ?_, p2, p3.trans k3, p4.trans k4, p5, p6, ?_, ?_⟩
    · rw [List.length_cons, ← Nat.add_assoc]
      conv => lhs; unfold drive
      rw [if_pos hn]
      simp only [g1, Out.ok_bind, k1]
      exact p1
    · intro x hx
      rcases List.mem_cons.1 hx with rfl | hx
      · rw [p8 _ _ (by rw [k3]; exact hes) (fun y hy hxy => hd'.1 y hy hxy), k5]
      · exact p7 x hx
    · intro a b ha hne
      rw [p8 a b (by rw [k3]; exact ha) (fun y hy => hne y (by simp [hy])), k6 a b ha (hne e (by simp))]

/-- The whole loop. -/
theorem Rep.drive_left (f : Nat → Nat → T → T) {s : CSR T} {rows : List (List (Nat × T))} {it : Iter}
    {i : Nat} {todo : List (Nat × T)} {n : Nat} (h : Rep s rows) (hit : Left rows it i todo)
    (hn : (left rows i todo).length ≤ n)
    (hd : (left rows i todo).Pairwise (fun a b => ¬ (a.1 = b.1 ∧ a.2.1 = b.2.1)))
    (hz : ∀ k (_ : k < (left rows i todo).length),
      isZero (f (left rows i todo)[k].1 (left rows i todo)[k].2.1 (left rows i todo)[k].2.2) = true →
      ∀ x ∈ (left rows i todo).drop (k + 1), x.1 ≠ (left rows i todo)[k].1) :
    ∃ s' rows', drive f n s it = .ok s' ∧ Rep s' rows' ∧ s'.r = s.r ∧ s'.c = s.c ∧
      (∀ e ∈ left rows i todo, cellOf rows' e.1 e.2.1 = norm (f e.1 e.2.1 e.2.2)) ∧
      (∀ a b, a < s.r → (∀ e ∈ left rows i todo, ¬ (a = e.1 ∧ b = e.2.1)) → cellOf rows' a b = cellOf rows a b) := by
  obtain ⟨s', rows', it', i', todo', g1, g2, g3, g4, g5, g6, g7, g8⟩ := Rep.drive_prefix f (left rows i todo) []
    (n - (left rows i todo).length) s rows it i todo h hit (by simp) hd (by simpa using hz)
  refine ⟨s', rows', ?_, g2, g3, g4, g7, g8⟩
  rw [Nat.sub_add_cancel hn] at g1
  rw [g1]
  have hn : it'.hasNext = false := by rw [g5.hasNext, g6]; rfl
  cases n - (left rows i todo).length <;> simp [drive, hn]

/-- The second loop of `next` never ends when the stored column is behind. -/
theorem walk_hang {s : CSR T} {k : Nat} (hk : k < s.cols.length) : ∀ (fuel : Nat) (it : Iter),
    it.pointerStart = k → k < it.pointerEnd → s.cols[k] < it.cIndex → walk s fuel it = .hang := by
  intro fuel
  induction fuel with
  | zero => intro it _ _ _; rfl
  | succ fuel ih =>
    intro it h1 h2 h3
    unfold walk
    rw [if_pos (by omega), h1, idx_ok hk]
    simp only [Out.ok_bind]
    rw [if_neg (by omega)]
    exact ih _ rfl h2 (by simp only; omega)

/-- Where a stored position lies. -/
theorem locate {α : Type} (rows : List (List α)) : ∀ k, k < rows.flatten.length →
    ∃ i L x R, rows[i]? = some (L ++ x :: R) ∧ k = offs rows i + L.length := by
  induction rows with
  | nil => intro k hk; simp at hk
  | cons row rows ih =>
    intro k hk
    rcases Nat.lt_or_ge k row.length with h | h
    · refine ⟨0, row.take k, row[k], row.drop (k + 1), ?_, ?_⟩
      · simp
      · simp [offs]; omega
    · obtain ⟨i, L, x, R, h1, h2⟩ := ih (k - row.length) (by simp at hk ⊢; omega)
      refine ⟨i + 1, L, x, R, by simpa using h1, ?_⟩
      have : offs (row :: rows) (i + 1) = row.length + offs rows i := by simp [offs]
      omega

theorem entriesFrom_concat (a b : List (List (Nat × T))) : ∀ i,
    entriesFrom i (a ++ b) = entriesFrom i a ++ entriesFrom (i + a.length) b := by
  induction a with
  | nil => intro i; simp [entriesFrom]
  | cons x a ih =>
    intro i
    simp only [List.cons_append, entriesFrom, ih, List.length_cons, List.append_assoc]
    rw [show i + 1 + a.length = i + (a.length + 1) by omega]

theorem entriesFrom_drop (rows : List (List (Nat × T))) {k : Nat} (hk : k ≤ rows.length) :
    entriesFrom 0 rows = entriesFrom 0 (rows.take k) ++ entriesFrom k (rows.drop k) := by
  conv => lhs; rw [← List.take_append_drop k rows, entriesFrom_concat]
  simp [Nat.min_eq_left hk]

theorem offs_set_same {α : Type} (rows : List (List α)) (i : Nat) (row : List α) (hi : i < rows.length)
    (hl : row.length = rows[i].length) {k : Nat} (hk : k ≤ rows.length) :
    offs (rows.set i row) k = offs rows k := by
  have := offs_set rows i row hi k hk
  rw [hl] at this; omega

/-- Storing zero at the last entry but one of a line makes the iterator pass over the last entry:
whatever happens afterwards, if the loop ends normally that entry is what it was. -/
theorem Rep.drive_skips (f : Nat → Nat → T → T) {s : CSR T} {rows : List (List (Nat × T))} {it : Iter}
    {i j ja : Nat} {old olda : T} {todo : List (Nat × T)} {rest : List (Nat × Nat × T)} {i0 n : Nat}
    (h : Rep s rows) (hit : Left rows it i0 todo)
    (hl : left rows i0 todo = (i, ja, olda) :: (i, j, old) :: rest)
    (hrest : ∀ x ∈ rest, i < x.1) (hn : (left rows i0 todo).length ≤ n)
    (hz : isZero (f i ja olda) = true) (hnz : ∀ a b v, ¬ (a = i ∧ b = ja) → isZero (f a b v) = false)
    {s' : CSR T} (hrun : drive f n s it = .ok s') :
    ∃ rows', Rep s' rows' ∧ s'.r = s.r ∧ s'.c = s.c ∧ cellOf rows' i j = old := by
  obtain ⟨n, rfl⟩ : ∃ k, n = k + 2 := ⟨n - 2, by rw [hl] at hn; simp at hn; omega⟩
  obtain ⟨it1, done, todo1, g1, g2, g3, g4, g5, g6, g7, g8⟩ := h.step_left hit hl
  simp only at g2 g3 g4 g5 g7
  have hir : i < rows.length := g2.le
  have his : i < s.r := by rw [← h.len]; exact hir
  have htodo : todo1 = [(j, old)] := by
    cases todo1 with
    | nil =>
      have hm : (i, j, old) ∈ left rows (i + 1) [] := by rw [g3]; simp
      simp only [left, List.map_nil, List.nil_append, mem_entriesFrom] at hm
      obtain ⟨k, hk, hm, -⟩ := hm
      omega
    | cons y t =>
      simp only [left, List.map_cons, List.cons_append, Nat.add_sub_cancel] at g3
      injection g3 with e1 e2
      cases t with
      | nil => simp at e1; rw [e1]
      | cons z t =>
        have := hrest (i, z.1, z.2) (by rw [← e2]; simp)
        simp at this
  subst htodo
  have hn1 : it.hasNext = true := by rw [hit.hasNext, hl]; rfl
  obtain ⟨s1, k1, k2, k3, k4, k5, k6⟩ := h.put_split (it := it1) (v := f i ja olda) g4 g5
    (fun _ => by rw [g2.r]; simp)
  have hrowi : rows[i] = done ++ [(ja, olda), (j, old)] := by
    rw [List.getElem?_eq_getElem hir] at g4; exact Option.some.inj g4
  have hmid : midOf ja (f i ja olda) = [] := by simp [midOf, hz]
  rw [hmid, List.append_nil] at k2 k5 k6
  set rows1 := rows.set i (done ++ [(j, old)]) with hrows1
  have hlen1 : rows1.length = rows.length := by simp [hrows1]
  have hcell1 : cellOf rows1 i j = old := by
    have hm : (i, j, old) ∈ entriesFrom 0 rows1 := by
      rw [mem_entriesFrom]
      exact ⟨i, by omega, by simp, by simp [hrows1]⟩
    exact k2.faithful.value _ hm
  have ho1 : offs rows1 i = offs rows i := by
    have := offs_set rows i (done ++ [(j, old)]) hir i (by omega)
    simp only [Nat.lt_irrefl, if_false] at this
    omega
  have hr1 : rows1[i]'(by omega) = done ++ [(j, old)] := by simp [hrows1]
  have hd1 : rows1.drop (i + 1) = rows.drop (i + 1) := List.drop_set_of_lt (by omega)
  have ho2 : offs rows1 (i + 1) = it1.pointerStart := by
    rw [offs_succ _ _ (by omega), hr1, ho1, g6, g5]; simp; omega
  have hpe := g2.pe
  have hsz := g2.size
  simp only [List.length_singleton] at hpe hsz
  have hn2 : it1.hasNext = true := by unfold Iter.hasNext; simp; omega
  have hrl : rest.length = (rows.drop (i + 1)).flatten.length := by
    have := left_length rows (i + 1) [(j, old)]
    rw [g3] at this; simp at this; simp; omega
  unfold drive at hrun
  simp only [hn1, if_true, g1, Out.ok_bind, k1] at hrun
  unfold drive at hrun
  simp only [hn2, if_true] at hrun
  -- the step past the end of the line
  have hskip : skip s1 (s1.rowStart.length + 1) it1 = .ok it1 := by
    unfold skip; rw [if_neg (by omega)]
  unfold step next at hrun
  simp only [hskip, Out.ok_bind] at hrun
  by_cases hk : it1.pointerStart < s1.cols.length
  swap
  · have : walk s1 (s1.cols.getD it1.pointerStart 0 + 1 - it1.cIndex + 1) it1 = .panic := by
      unfold walk
      rw [if_pos (by omega)]
      have : idx s1.cols it1.pointerStart = .panic := by
        simp [idx, List.getElem?_eq_none (Nat.le_of_not_lt hk)]
      rw [this]; rfl
    rw [this] at hrun; simp at hrun
  by_cases hcol : it1.cIndex ≤ s1.cols[it1.pointerStart]
  swap
  · rw [walk_hang hk _ _ rfl (by omega) (by omega)] at hrun; simp at hrun
  have hgetD : s1.cols.getD it1.pointerStart 0 = s1.cols[it1.pointerStart] := by simp [List.getD, hk]
  rw [walk_ok hk _ it1 rfl (by omega) hcol (by rw [hgetD]; omega)] at hrun
  have hkf : it1.pointerStart < rows1.flatten.length := by rw [← k2.cols_length]; exact hk
  have hkv : it1.pointerStart < s1.values.length := by rw [k2.values_length]; exact hkf
  simp only [Out.ok_bind, idx_ok hkv] at hrun
  have hrn : it1.r.toNat = i := by rw [g2.r]; simp
  rw [hrn] at hrun
  have hnz1 : isZero (f i s1.cols[it1.pointerStart] s1.values[it1.pointerStart]) = false :=
    hnz _ _ _ (fun hc => by rw [g7] at hcol; omega)
  generalize hv : f i s1.cols[it1.pointerStart] s1.values[it1.pointerStart] = v at hrun hnz1
  obtain ⟨i2, L2, x, R2, e1, e2⟩ := locate rows1 it1.pointerStart hkf
  obtain ⟨jx, oldx⟩ := x
  have hi2 : i2 < rows1.length := by
    rcases Nat.lt_or_ge i2 rows1.length with hi | hi
    · exact hi
    · rw [List.getElem?_eq_none hi] at e1; simp at e1
  have hr2 : rows1[i2] = L2 ++ (jx, oldx) :: R2 := by
    rw [List.getElem?_eq_getElem hi2] at e1; exact Option.some.inj e1
  have hne : i2 ≠ i := by
    intro hc
    subst hc
    rw [hr1] at hr2
    have := congrArg List.length hr2
    simp at this
    rw [ho1, g6, g5] at e2
    omega
  obtain ⟨s2, p1, p2, p3, p4, p5, p6⟩ := k2.put_split (it := ⟨it1.size, it1.last + 1, s1.cols[it1.pointerStart], it1.r,
    s1.cols[it1.pointerStart] + 1, it1.pointerStart, it1.pointerStart + 1, it1.pointerEnd⟩) (v := v) e1 e2
    (fun hc => by rw [hnz1] at hc; simp at hc)
  rw [p1, Out.ok_bind] at hrun
  have hlen : (L2 ++ midOf jx v ++ R2).length = rows1[i2].length := by rw [hr2]; simp [midOf, hnz1]
  set rows2 := rows1.set i2 (L2 ++ midOf jx v ++ R2) with hrows2
  have hlen2 : rows2.length = rows1.length := by simp [hrows2]
  have ho3 : offs rows2 (i + 1) = offs rows1 (i + 1) := offs_set_same _ _ _ hi2 hlen (by omega)
  have ho4 : offs rows2 rows2.length = offs rows1 rows1.length := by
    rw [hlen2]; exact offs_set_same _ _ _ hi2 hlen (by omega)
  rw [offs_length, offs_length] at ho4
  have hfl : (rows2.drop (i + 1)).flatten.length = (rows.drop (i + 1)).flatten.length := by
    have a1 := offs_drop rows2 (i + 1)
    have a2 := offs_drop rows1 (i + 1)
    rw [hd1] at a2
    omega
  have hL : Left rows2 ⟨it1.size, it1.last + 1, s1.cols[it1.pointerStart], it1.r,
    s1.cols[it1.pointerStart] + 1, it1.pointerStart, it1.pointerStart + 1, it1.pointerEnd⟩ (i + 1) [] := by
    refine ⟨g2.r, by omega, by simp only [List.length_nil]; omega, by simp only [List.length_nil]; omega, Or.inl rfl, by simp⟩
  have hleft2 : left rows2 (i + 1) [] = entriesFrom (i + 1) (rows2.drop (i + 1)) := by simp [left]
  have hge : ∀ x ∈ left rows2 (i + 1) [], i < x.1 := by
    intro x hx
    rw [hleft2, mem_entriesFrom] at hx
    obtain ⟨k, hk, hx, -⟩ := hx
    omega
  obtain ⟨s3, rows3, q1, q2, q3, q4, q5, q6⟩ := p2.drive_left f (n := n) hL
    (by rw [left_length, hfl, List.length_nil]; rw [hl] at hn; simp only [List.length_cons] at hn; omega)
    (by
      have := p2.faithful.distinct
      rw [entriesFrom_drop rows2 (k := i + 1) (by omega)] at this
      rw [hleft2]
      exact (List.pairwise_append.1 this).2.1)
    (by
      intro k hk hzk
      have := hge _ (List.getElem_mem hk)
      rw [hnz _ _ _ (by omega)] at hzk
      simp at hzk)
  rw [q1] at hrun
  injection hrun with hrun
  subst hrun
  refine ⟨rows3, q2, by omega, by omega, ?_⟩
  rw [q6 i j (by omega) (fun e he hc => by have := hge e he; omega), p6 i j (by omega) (by omega), hcell1]

/-- If a line has two entries, the map that stores zero at the last but one of them, and `w`
elsewhere, does not store `w` at the last one. -/
theorem Rep.drive_wrong {s : CSR T} {rows : List (List (Nat × T))} (h : Rep s rows) {i ja jb : Nat}
    {a b : T} {L : List (Nat × T)} (hrow : rows[i]? = some (L ++ [(ja, a), (jb, b)])) {n : Nat}
    (hn : s.values.length ≤ n) (f : Nat → Nat → T → T) (hz : isZero (f i ja a) = true)
    (hnz : ∀ x y v, ¬ (x = i ∧ y = ja) → isZero (f x y v) = false) {s' : CSR T}
    (hrun : drive f n s s.iter = .ok s') :
    ∃ rows', Rep s' rows' ∧ s'.r = s.r ∧ s'.c = s.c ∧ cellOf rows' i jb = b := by
  have hir : i < rows.length := by
    rcases Nat.lt_or_ge i rows.length with hi | hi
    · exact hi
    · rw [List.getElem?_eq_none hi] at hrow; simp at hrow
  have hr : rows[i] = L ++ [(ja, a), (jb, b)] := by
    rw [List.getElem?_eq_getElem hir] at hrow; exact Option.some.inj hrow
  obtain ⟨hL, hleft⟩ := h.left_init
  obtain ⟨pre, hpre⟩ : ∃ pre, pre = entriesFrom 0 (rows.take i) ++ L.map (fun e => (i, e.1, e.2)) := ⟨_, rfl⟩
  obtain ⟨rest, hrest⟩ : ∃ rest, rest = entriesFrom (i + 1) (rows.drop (i + 1)) := ⟨_, rfl⟩
  have hsplit : entriesFrom 0 rows = pre ++ (i, ja, a) :: (i, jb, b) :: rest := by
    rw [entriesFrom_drop rows (k := i) (by omega), List.drop_eq_getElem_cons hir, hpre, hrest]
    simp [entriesFrom, hr]
  have hlen : (entriesFrom 0 rows).length ≤ n := by rw [entriesFrom_length, ← h.values_length]; exact hn
  have hdist := h.faithful.distinct
  rw [hsplit] at hdist
  have hd := List.pairwise_append.1 hdist
  have hpl : pre.length + (2 + rest.length) ≤ n := by rw [hsplit] at hlen; simp at hlen; omega
  obtain ⟨s1, rows1, it1, i1, todo1, g1, g2, g3, g4, g5, g6, -, -⟩ := Rep.drive_prefix f pre
    ((i, ja, a) :: (i, jb, b) :: rest) (n - pre.length) s rows s.iter 0 [] h hL (by rw [hleft, hsplit]) hd.1
    (fun k hk hzk => by
      have := hd.2.2 _ (List.getElem_mem hk) (i, ja, a) (by simp)
      rw [hnz _ _ _ this] at hzk
      simp at hzk)
  rw [Nat.sub_add_cancel (by omega), hrun] at g1
  obtain ⟨rows', k1, k2, k3, k4⟩ := g2.drive_skips f g5 g6
    (fun x hx => by
      rw [hrest, mem_entriesFrom] at hx
      obtain ⟨k, hk, hx, -⟩ := hx
      omega) (by rw [g6]; simp; omega) hz hnz g1.symm
  exact ⟨rows', k1, k2.trans g3, k3.trans g4, k4⟩

/-- Two cells of one line that are not zero: the line ends with two entries. -/
theorem Rep.two_entries {s : CSR T} [GoStore T] {rows : List (List (Nat × T))} (h : Rep s rows) {i j j' : Nat}
    (hi : i < s.r) (hne : j ≠ j') (h1 : cellOf rows i j ≠ 0) (h2 : cellOf rows i j' ≠ 0) :
    ∃ L ja a jb b, rows[i]? = some (L ++ [(ja, a), (jb, b)]) := by
  have hir : i < rows.length := by rw [h.len]; exact hi
  rw [h.cell_eq hi] at h1 h2
  have key : ∀ j, rowGet rows[i] j ≠ 0 → ∃ x ∈ rows[i], x.1 = j := by
    intro j hj
    by_contra hc
    push Not at hc
    exact hj (rowGet_none hc)
  obtain ⟨x, hx, hxj⟩ := key j h1
  obtain ⟨y, hy, hyj⟩ := key j' h2
  rw [List.getElem?_eq_getElem hir]
  rcases List.eq_nil_or_concat rows[i] with e | ⟨K, u, e⟩
  · rw [e] at hx; simp at hx
  · rcases List.eq_nil_or_concat K with e' | ⟨L, v, e'⟩
    · rw [e, e'] at hx hy
      simp at hx hy
      rw [hx] at hxj; rw [hy] at hyj; omega
    · refine ⟨L, v.1, v.2, u.1, u.2, ?_⟩
      rw [e, e']; simp

end CSR

end GB
