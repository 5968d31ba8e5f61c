import Verif.SpecReplay
import Verif.Lemmas.IntoSVec
import Verif.Lemmas.Safe
import Verif.Lemmas.SVecEntries
import Verif.Lemmas.Reduce2

/-!
# An operator does to its output what a list of calls does
-/

namespace GB

set_option linter.unusedSectionVars false
set_option linter.unusedSimpArgs false

open M

variable {T : Type} [GoNum T] [GoStore T]

/-! ## Reading objects in any reachable state -/

namespace Mat

theorem Inv.delivers {m : Mat T} (h : m.Inv) : Yields Iter.hasNext m.step m.iter m.entries := by
  by_cases hk : m.kind = .svec
  · cases m <;> simp [kind] at hk
    rename_i s
    have h : s.Weak := h
    exact Mat.svec_yields _ _ h.yields
  · obtain ⟨es, e1, -, -, e4⟩ := Mat.ordered_entries (h.wf hk)
    have : m.entries = es := by
      rw [e4]
      cases m <;> first | rfl | exact absurd rfl hk
    rw [this]
    exact e1.yields

theorem Inv.entries_in {m : Mat T} (h : m.Inv) {e : Nat × Nat × T} (he : e ∈ m.entries) : e.1 < m.rows ∧ e.2.1 < m.cols := by
  by_cases hk : m.kind = .svec
  · cases m <;> simp [kind] at hk
    rename_i s
    have h : s.Weak := h
    obtain ⟨x, hx, rfl⟩ := List.mem_map.1 he
    exact ⟨(h.pairs_bound hx).1, Nat.one_pos⟩
  · have he : e ∈ (m.scan.filter fun p => !(m.kind.sparse && isZero (m.val p.1 p.2))).map
        fun p => (p.1, p.2, m.val p.1 p.2) := by
      cases m <;> first | exact he | exact absurd rfl hk
    obtain ⟨p, hp, rfl⟩ := List.mem_map.1 he
    exact mem_scan.1 (List.mem_of_mem_filter hp)

theorem Inv.entries_length {m : Mat T} (h : m.Inv) : m.entries.length = m.nvalues := by
  by_cases hk : m.kind = .svec
  · cases m <;> simp [kind] at hk
    rename_i s
    have h : s.Weak := h
    simp [entries, nvalues, h.len]
  · obtain ⟨es, -, e2, -, e4⟩ := Mat.ordered_entries (h.wf hk)
    have : m.entries = es := by
      rw [e4]
      cases m <;> first | rfl | exact absurd rfl hk
    rw [this, e2]

theorem Inv.rowsAt_val {m : Mat T} (h : m.Inv) {i : Nat} (hi : i < m.rows) :
    ∃ v, m.rowsAt i = .ok v ∧ v.length = m.cols ∧ ∀ l : Nat, l < m.cols → v.atVec l = .ok (m.rowVal i l) := by
  by_cases hk : m.kind = .svec
  · cases m <;> simp [kind] at hk
    rename_i s
    have hw : s.Weak := h
    have hi : i < s.l := hi
    obtain ⟨x, g1, g2⟩ := hw.at_self hi
    have hval : (Mat.svec s).val i 0 = x := by
      have := h.at_ok (i := i) (j := 0) hi Nat.one_pos
      have e : (Mat.svec s).at' i (0 : Nat) = .ok (x, .svec s) := by
        simp [at', SVec.at', SVec.updateWith, hi, g1, g2, show inRange 0 1 = true from rfl]
      rw [e] at this
      simpa using (Out.ok.inj this).symm
    have hz : isZero x = true → x = 0 := by
      intro hz
      obtain ⟨p, h1, h2⟩ := SVec.index_le s i
      unfold SVec.atVec at g1
      simp only [inRange_natCast, hi, decide_true, if_true, Int.toNat_natCast, h1, Out.ok_bind] at g1
      split at g1
      · rename_i hp
        simp only [idx_ok hp, Out.ok_bind] at g1
        split at g1
        · have hpv : p < s.values.length := by rw [← hw.len]; exact hp
          rw [idx_ok hpv] at g1
          have := hw.nz _ (List.getElem_mem hpv)
          rw [Out.ok.inj g1, hz] at this
          cases this
        · exact (Out.ok.inj g1).symm
      · exact (Out.ok.inj g1).symm
    have hs : ∃ s', (SVec.new 1 : SVec T).setVec 0 x = .ok s' ∧ s'.l = 1 ∧ s'.atVec 0 = .ok x := by
      have hr : SVec.Rep (SVec.new 1 : SVec T) [] := SVec.rep_new 1
      obtain ⟨s', e1, e2, e3⟩ := hr.push (i := 0) Nat.one_pos (by simp) x
      refine ⟨s', e1, e2, ?_⟩
      have := e3.atVec_ok (i := 0) (by rw [e2]; exact Nat.one_pos)
      rw [show s'.atVec 0 = s'.atVec ((0 : Nat) : Int) from rfl, this]
      simp only [List.nil_append, Nat.zero_le, if_true]
      unfold midOf
      split
      · rename_i h0; rw [hz h0]; simp [rowGet]
      · simp [rowGet]
    obtain ⟨s', e1, e2, e3⟩ := hs
    refine ⟨.svec s', by simp [rowsAt, SVec.rowsAt, hi, g1, e1], e2, fun l hl => ?_⟩
    obtain rfl : l = 0 := by simp [cols] at hl; omega
    show s'.atVec 0 = _
    rw [e3]
    simp [rowVal, kind, hval]
  · exact rowsAt_read (h.wf hk) hi

theorem Inv.columnsAt_val {m : Mat T} (h : m.Inv) {j : Nat} (hj : j < m.cols) :
    ∃ v, m.columnsAt j = .ok v ∧ v.length = m.rows ∧ ∀ l : Nat, l < m.rows → v.atVec l = .ok (m.colVal j l) := by
  by_cases hk : m.kind = .svec
  · cases m <;> simp [kind] at hk
    rename_i s
    have hw : s.Weak := h
    obtain rfl : j = 0 := by simp [cols] at hj; omega
    refine ⟨.svec s, by simp [columnsAt, SVec.columnsAt, inRange, SVec.copy_eq s hw.len], rfl, fun l hl => ?_⟩
    have hl : l < s.l := hl
    obtain ⟨x, g1, g2⟩ := hw.at_self hl
    have := h.at_ok (i := l) (j := 0) hl Nat.one_pos
    have e : (Mat.svec s).at' l (0 : Nat) = .ok (x, .svec s) := by
      simp [at', SVec.at', SVec.updateWith, hl, g1, g2, show inRange 0 1 = true from rfl]
    rw [e] at this
    have hx : x = (Mat.svec s).val l 0 := by simpa using (Out.ok.inj this)
    show s.atVec l = _
    rw [g1, hx]
    simp [colVal, kind]
  · exact columnsAt_read (h.wf hk) hj

end Mat

/-! ## Looks -/

/-- The calls, together with the looks at the context (`none`): one before each entry, and one before each product of an
inner product. -/
def OpCall.doings (w : World T) (mask : Mask) : OpCall T → List (Option (Op T))
  | .mxm s m | .mxv s m | .vxm m s =>
    (List.range (w.heap s).rows).flatMap fun i => (List.range (w.heap m).cols).flatMap fun j =>
      List.replicate (w.heap s).cols none ++ if mask.bit w i j then []
        else [some (.set i j (dotSum (w.heap s).cols ((w.heap s).rowVal i) ((w.heap m).colVal j)))]
  | .add s m => (lead w s m).entries.flatMap fun e =>
      none :: if mask.bit w e.1 e.2.1 then [] else [some (.set e.1 e.2.1 ((follow w s m).val e.1 e.2.1 + e.2.2))]
  | .subtract s _ => (w.heap s).entries.flatMap fun e =>
      none :: if mask.bit w e.1 e.2.1 then [] else [some (.update e.1 e.2.1 fun v => e.2.2 - v)]
  | .eMulMatrix s m | .eMulVector s m => (lead w s m).entries.flatMap fun e =>
      none :: if GoNum.geq e.2.2 ((follow w s m).val e.1 e.2.1) && !mask.bit w e.1 e.2.1 then [some (.set e.1 e.2.1 e.2.2)]
        else []
  | .eAddMatrix s m | .eAddVector s m => ((w.heap s).entries ++ (w.heap m).entries).flatMap fun e =>
      none :: if isZero e.2.2 || mask.bit w e.1 e.2.1 then [] else [some (.set e.1 e.2.1 e.2.2)]
  | .apply s u => (w.heap s).entries.flatMap fun e =>
      none :: if mask.bit w e.1 e.2.1 then [] else [some (.set e.2.1 e.1 (u e.2.2))]
  | .transpose s => (w.heap s).entries.flatMap fun e =>
      none :: if mask.bit w e.1 e.2.1 then [] else [some (.set e.2.1 e.1 e.2.2)]
  | .negative _ => []

/-- The calls of a list of doings that happen when the context is found cancelled after `c` more looks (`none`: never). -/
def made {α : Type} : Option Nat → List (Option α) → List α
  | _, [] => []
  | c, some o :: l => o :: made c l
  | none, none :: l => made none l
  | some 0, none :: _ => []
  | some (k + 1), none :: l => made (some k) l

/-- The looks that are left after a list of doings, `none` if it was cut short. -/
def rest {α : Type} : Option Nat → List (Option α) → Option (Option Nat)
  | c, [] => some c
  | c, some _ :: l => rest c l
  | none, none :: l => rest none l
  | some 0, none :: _ => none
  | some (k + 1), none :: l => rest (some k) l

theorem made_append {α : Type} : ∀ (xs ys : List (Option α)) (c : Option Nat),
    made c (xs ++ ys) = made c xs ++ (match rest c xs with | some c' => made c' ys | none => [])
  | [], _, c => by cases c <;> rfl
  | some o :: xs, ys, c => by
    have := made_append xs ys c
    rcases c with _ | _ | c <;> simp only [List.cons_append, made, rest, this]
  | none :: xs, ys, none => by
    simp only [List.cons_append, made, rest]; exact made_append xs ys none
  | none :: xs, ys, some 0 => rfl
  | none :: xs, ys, some (k + 1) => by
    simp only [List.cons_append, made, rest]; exact made_append xs ys (some k)

theorem rest_append {α : Type} : ∀ (xs ys : List (Option α)) (c : Option Nat),
    rest c (xs ++ ys) = (rest c xs).bind fun c' => rest c' ys
  | [], _, c => by cases c <;> rfl
  | some o :: xs, ys, c => by
    have := rest_append xs ys c
    rcases c with _ | _ | c <;> simp only [List.cons_append, rest, this]
  | none :: xs, ys, none => by
    simp only [List.cons_append, rest]; exact rest_append xs ys none
  | none :: xs, ys, some 0 => rfl
  | none :: xs, ys, some (k + 1) => by
    simp only [List.cons_append, rest]; exact rest_append xs ys (some k)

theorem made_none {α : Type} : ∀ l : List (Option α), made none l = l.filterMap id
  | [] => rfl
  | some o :: l => by simp [made, made_none l]
  | none :: l => by simp [made, made_none l]

theorem rest_none {α : Type} : ∀ l : List (Option α), rest none l = some none
  | [] => rfl
  | some o :: l => by simp [rest, rest_none l]
  | none :: l => by simp [rest, rest_none l]

/-! ## Loops -/

/-- The call returned; from `w` only `out` changed, and it changed as the calls that are made of `ds` change it. The result
is `a`, or `b` if the call was cut short. -/
def Replays {α : Type} (w : World T) (out : Ref) (ds : List (Option (Op T))) (a b : α) (res : Res T α) : Prop :=
  ∃ m', (w.heap out).run (made w.cancel ds) = .ok m' ∧ m'.Inv ∧ Mat.Same m' (w.heap out) ∧
    res = .ok (if (rest w.cancel ds).isSome then a else b) (w.upd out m' ((rest w.cancel ds).getD (some 0)))

/-- From any contents of the output (of its type and shape) and any context the program does what `ds` do. -/
def Follows {α : Type} (w : World T) (out : Ref) (ds : List (Option (Op T))) (a b : α) (x : M T α) : Prop :=
  ∀ m c, m.Inv → Mat.Same m (w.heap out) → Replays (w.upd out m c) out ds a b (x (w.upd out m c))

theorem Follows.here {α : Type} {w : World T} {out : Ref} {ds : List (Option (Op T))} {a b : α} {x : M T α}
    (h : Follows w out ds a b x) (hi : (w.heap out).Inv) : Replays w out ds a b (x w) := by
  have := h _ w.cancel hi (Mat.Same.refl _)
  rwa [w.upd_self out] at this

theorem Follows.one {α : Type} {w : World T} {out : Ref} {o : Op T} {a b : α} {x : M T α}
    (ho : o.InRange (w.heap out).rows (w.heap out).cols)
    (hx : ∀ m m' c, m.Inv → Mat.Same m (w.heap out) → o.apply m = .ok m' →
      x (w.upd out m c) = .ok a (w.upd out m' c)) : Follows w out [some o] a b x := by
  intro m c hm hS
  obtain ⟨m', e1, e2, e3⟩ := hm.apply_ok (o := o) (by rw [hS.2.1, hS.2.2]; exact ho)
  have h1 : made c [some o] = [o] := by rcases c with _ | _ | c <;> rfl
  have h2 : rest c [some o] = some c := by rcases c with _ | _ | c <;> rfl
  refine ⟨m', ?_, e2, ?_, ?_⟩
  · rw [World.upd_out]; show m.run (made c _) = _; rw [h1]; simp [Mat.run, e1]
  · rw [World.upd_out]; exact e3
  · show _ = Res.ok (if (rest c _).isSome then a else b) (World.upd _ _ _ ((rest c _).getD _))
    rw [h2, hx m m' c hm hS e1, World.upd_upd]; rfl

theorem Follows.idle {α : Type} {w : World T} {out : Ref} {a b : α} {x : M T α}
    (hx : ∀ m c, m.Inv → Mat.Same m (w.heap out) → x (w.upd out m c) = .ok a (w.upd out m c)) : Follows w out [] a b x := by
  intro m c hm hS
  have h1 : made c ([] : List (Option (Op T))) = [] := by rcases c with _ | _ | c <;> rfl
  have h2 : rest c ([] : List (Option (Op T))) = some c := by rcases c with _ | _ | c <;> rfl
  refine ⟨m, ?_, hm, by rw [World.upd_out]; exact Mat.Same.refl _, ?_⟩
  · rw [World.upd_out]; show m.run (made c _) = _; rw [h1]; rfl
  · show _ = Res.ok (if (rest c _).isSome then a else b) (World.upd _ _ _ ((rest c _).getD _))
    rw [h2, hx m c hm hS, World.upd_upd]; rfl

theorem Follows.bind {α β : Type} {w : World T} {out : Ref} {xs ys : List (Option (Op T))} {a b : α} {a' b' : β}
    {x : M T α} {y : α → M T β} (h1 : Follows w out xs a b x) (h2 : Follows w out ys a' b' (y a))
    (h3 : ∀ w', y b w' = .ok b' w') : Follows w out (xs ++ ys) a' b' (x >>= y) := by
  intro m c hm hS
  obtain ⟨m1, e1, e2, e3, e4⟩ := h1 m c hm hS
  rw [World.upd_out] at e1 e3
  rw [World.upd_upd] at e4
  have e1 : m.run (made c xs) = .ok m1 := e1
  have e4 : x (w.upd out m c) = .ok (if (rest c xs).isSome then a else b) (w.upd out m1 ((rest c xs).getD (some 0))) := e4
  cases hr : rest c xs with
  | none =>
    rw [hr] at e4
    refine ⟨m1, ?_, e2, ?_, ?_⟩
    · rw [World.upd_out]; show m.run (made c _) = _
      rw [made_append, hr, List.append_nil, e1]
    · rw [World.upd_out]; exact e3
    · show _ = Res.ok (if (rest c _).isSome then a' else b') (World.upd _ _ _ ((rest c _).getD _))
      rw [bind_ok e4, rest_append, hr, World.upd_upd]
      exact h3 _
  | some c' =>
    rw [hr] at e4
    obtain ⟨m2, f1, f2, f3, f4⟩ := h2 m1 c' e2 (e3.trans hS)
    rw [World.upd_out] at f1 f3
    rw [World.upd_upd] at f4
    refine ⟨m2, ?_, f2, ?_, ?_⟩
    · rw [World.upd_out]; show m.run (made c _) = _
      rw [made_append, hr, Mat.run_append, e1]; exact f1
    · rw [World.upd_out]; exact f3.trans e3
    · show _ = Res.ok (if (rest c _).isSome then a' else b') (World.upd _ _ _ ((rest c _).getD _))
      rw [bind_ok e4, rest_append, hr, World.upd_upd]
      exact f4

/-- Replacing the program by one that runs alike. -/
theorem Follows.congr {α : Type} {w : World T} {out : Ref} {ds : List (Option (Op T))} {a b : α} {x y : M T α}
    (h : Follows w out ds a b x) (e : ∀ m c, m.Inv → Mat.Same m (w.heap out) → y (w.upd out m c) = x (w.upd out m c)) :
    Follows w out ds a b y := by
  intro m c hm hS
  rw [e m c hm hS]; exact h m c hm hS

theorem Follows.look {α : Type} {w : World T} {out : Ref} {ds : List (Option (Op T))} {a b : α} {x : M T α}
    (h : Follows w out ds a b x) :
    Follows w out (none :: ds) a b (M.poll >>= fun stop => if stop then pure b else x) := by
  intro m c hm hS
  rcases c with _ | _ | c
  · exact h m none hm hS
  · exact ⟨m, by rw [World.upd_out]; rfl, hm, by rw [World.upd_out]; exact Mat.Same.refl _, by rw [World.upd_upd]; rfl⟩
  · obtain ⟨m', a1, a2, a3, a4⟩ := h m (some c) hm hS
    rw [World.upd_out] at a1 a3
    rw [World.upd_upd] at a4
    refine ⟨m', by rw [World.upd_out]; exact a1, a2, by rw [World.upd_out]; exact a3, ?_⟩
    rw [World.upd_upd]
    exact a4

theorem Follows.loop {w : World T} {over out : Ref} {es : List (Nat × Nat × T)} {body : Nat → Nat → T → M T (Option Unit)}
    {f : Nat × Nat × T → List (Option (Op T))} (hne : over ≠ out)
    (hb : ∀ e ∈ es, Follows w out (f e) none (some ()) (body e.1 e.2.1 e.2.2)) :
    ∀ (g : Nat) (it : Mat.Iter), Yields Mat.Iter.hasNext (w.heap over).step it es → es.length ≤ g →
      Follows w out (es.flatMap fun e => none :: f e) none (some ()) (loopIter over (some ()) body g it) := by
  induction es with
  | nil =>
    intro g it hY _
    have hY : it.hasNext = false := hY
    refine Follows.idle (fun m c _ _ => ?_)
    cases g <;> simp [loopIter, hY]
  | cons e es ih =>
    intro g it hY hg
    obtain ⟨g, rfl⟩ : ∃ k, g = k + 1 := ⟨g - 1, by simp at hg; omega⟩
    obtain ⟨h1, it', h2, h3⟩ := hY
    have ih := ih (fun e he => hb e (by simp [he])) g it' h3 (by simp at hg; omega)
    have key := ((hb e (by simp)).bind (y := fun x => match x with
        | some b => pure (some b)
        | none => loopIter over (some ()) body g it') ih (fun _ => rfl)).look
    rw [List.flatMap_cons, List.cons_append]
    refine key.congr (fun m c _ _ => ?_)
    have hst : ∀ c, ((w.upd out m c).heap over).step it = .ok (it', e) := by
      intro c; rw [World.upd_ne _ _ _ hne]; exact h2
    rw [loopIter, if_pos h1]
    rcases c with _ | _ | c
    · have hp : (M.poll : M T Bool) (w.upd out m none) = .ok false (w.upd out m none) := rfl
      rw [bind_ok hp, bind_ok hp]
      simp only [Bool.false_eq_true, if_false]
      rw [bind_ok (ofObj_ok (hst none))]
      simp only [bind_apply]
      cases body e.1 e.2.1 e.2.2 (w.upd out m none) with
      | ok a w' => cases a <;> rfl
      | panic w' => rfl
      | hang w' => rfl
    · rfl
    · have hp : (M.poll : M T Bool) (w.upd out m (some (c + 1))) = .ok false (w.upd out m (some c)) := rfl
      rw [bind_ok hp, bind_ok hp]
      simp only [Bool.false_eq_true, if_false]
      rw [bind_ok (ofObj_ok (hst (some c)))]
      simp only [bind_apply]
      cases body e.1 e.2.1 e.2.2 (w.upd out m (some c)) with
      | ok a w' => cases a <;> rfl
      | panic w' => rfl
      | hang w' => rfl

theorem Follows.forEach {w : World T} {over out : Ref} {body : Nat → Nat → T → M T (Option Unit)}
    {f : Nat × Nat × T → List (Option (Op T))} (hne : over ≠ out) (ho : (w.heap over).Inv)
    (hg : (w.heap over).nvalues ≤ w.gas)
    (hb : ∀ e ∈ (w.heap over).entries, Follows w out (f e) none (some ()) (body e.1 e.2.1 e.2.2)) :
    Follows w out ((w.heap over).entries.flatMap fun e => none :: f e) none (some ()) (M.forEach over (some ()) body) := by
  refine (Follows.loop hne hb w.gas (w.heap over).iter ho.delivers (by rw [ho.entries_length]; exact hg)).congr
    (fun m c _ _ => ?_)
  rw [forEach_eq, World.upd_ne _ _ _ hne]
  rfl

theorem Follows.forN {w : World T} {out : Ref} {body : Nat → M T (Option Unit)} {f : Nat → List (Option (Op T))} :
    ∀ (n i : Nat), (∀ k, i ≤ k → k < i + n → Follows w out (f k) none (some ()) (body k)) →
      Follows w out ((List.range' i n).flatMap f) none (some ()) (M.forN n i body)
  | 0, i, _ => Follows.idle (fun _ _ _ _ => rfl)
  | n + 1, i, h => by
    have ih := Follows.forN n (i + 1) (fun k h1 h2 => h k (by omega) (by omega))
    have := (h i (Nat.le_refl _) (by omega)).bind (y := fun x => match x with
        | some b => pure (some b)
        | none => M.forN n (i + 1) body) ih (fun _ => rfl)
    refine this.congr (fun m c _ _ => ?_)
    simp only [M.forN, bind_apply]
    cases body i (w.upd out m c) with
    | ok a w' => cases a <;> rfl
    | panic w' => rfl
    | hang w' => rfl

/-- The inner product looks once for each product. -/
theorem Follows.dot {w : World T} {out : Ref} {rows column : Vec T} {n : Nat} {a b : Nat → T}
    (hr : ∀ l : Nat, l < n → rows.atVec l = .ok (a l)) (hcol : ∀ l : Nat, l < n → column.atVec l = .ok (b l)) :
    ∀ (k l : Nat) (sum : T), l + k = n → ∃ v, (∀ w' : World T, w'.cancel = none → Ops.dot rows column k l sum w' = .ok (some v) w') ∧
      Follows w out (List.replicate k none) (some v) none (Ops.dot rows column k l sum)
  | 0, l, sum, _ => ⟨sum, fun _ _ => rfl, Follows.idle (fun _ _ _ _ => rfl)⟩
  | k + 1, l, sum, h => by
    obtain ⟨v, h1, h2⟩ := Follows.dot hr hcol k (l + 1) (sum + a l * b l) (by omega)
    have e : (Ops.dot rows column (k + 1) l sum : M T (Option T)) =
        (M.poll >>= fun stop => if stop then pure none else Ops.dot rows column k (l + 1) (sum + a l * b l)) := by
      funext w'
      simp only [Ops.dot, bind_apply]
      cases M.poll w' with
      | ok x w1 =>
        cases x
        · simp only [Bool.false_eq_true, if_false, bind_apply, lift, hr l (by omega), hcol l (by omega)]
        · rfl
      | panic _ => rfl
      | hang _ => rfl
    refine ⟨v, fun w' hc => ?_, ?_⟩
    · rw [e]
      have hp : (M.poll : M T Bool) w' = .ok false w' := by unfold M.poll; rw [hc]
      rw [bind_ok hp]; exact h1 w' hc
    · rw [e]; exact h2.look

end GB
