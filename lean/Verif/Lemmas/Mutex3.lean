import Verif.Lemmas.MutexCSC
import Verif.Props.Effects

/-!
# The calls of `MutexMatrix`, access by access, do what the methods do
-/

namespace GB
namespace Mutex

set_option linter.unusedSectionVars false
set_option linter.unusedSimpArgs false

variable {T : Type} [GoNum T]

/-! ## Accesses -/

theorem rdCSR_run {α : Type} {get : CSR T → Out α} {k : α → Prog (Mat T) (Out (Val T))} {s : CSR T} {a : α}
    (h : get s = .ok a) : (rdCSR get k).run (.csr s) = (k a).run (.csr s) := by
  simp only [rdCSR, Prog.run, h, id]

theorem wrCSR_run {put : CSR T → Out (CSR T)} {k : Prog (Mat T) (Out (Val T))} {s s' : CSR T}
    (h : put s = .ok s') : (wrCSR put k).run (.csr s) = k.run (.csr s') := by
  simp only [wrCSR, Prog.run, h]

theorem rdCSR_quiet {α : Type} {get : CSR T → Out α} {k : α → Prog (Mat T) (Out (Val T))} {s : CSR T} {a : α}
    (h : get s = .ok a) (hk : (k a).Quiet (.csr s)) : (rdCSR get k).Quiet (.csr s) := by
  simp only [rdCSR, Prog.Quiet, h, id, true_and]
  exact hk

theorem ok_of_bind {α β : Type} {x : Out α} {f : α → Out β} {b : β} (h : (x >>= f) = .ok b) :
    ∃ a, x = .ok a ∧ f a = .ok b := by
  cases x with
  | ok a => exact ⟨a, rfl, h⟩
  | panic => cases h
  | hang => cases h

theorem bumpProg_run (f : Nat → Nat) (k : Prog (Mat T) (Out (Val T))) : ∀ (n i : Nat) (s : CSR T) (l : List Nat),
    loop n i (fun i l => do let x ← idx l i; setIdx l i (f x)) s.rowStart = .ok l →
    (bumpProg f k n i).run (.csr s) = k.run (.csr { s with rowStart := l }) := by
  intro n
  induction n with
  | zero =>
    intro i s l h
    simp only [loop, Out.ok.injEq] at h
    subst h; rfl
  | succ n ih =>
    intro i s l h
    simp only [loop] at h
    obtain ⟨l1, h1, h2⟩ := ok_of_bind h
    obtain ⟨x, h3, h4⟩ := ok_of_bind h1
    unfold bumpProg
    rw [wrCSR_run (s' := { s with rowStart := l1 }) (by rw [h3]; simp only [Out.ok_bind]; rw [h4]; rfl)]
    exact ih (i + 1) { s with rowStart := l1 } l h2

theorem insertProg_run {s s' : CSR T} {pointer r c row : Nat} {value : T} {k : Prog (Mat T) (Out (Val T))}
    (h : s.insert pointer r c value = .ok (s', row)) :
    (insertProg s.r pointer r c value k).run (.csr s) = k.run (.csr s') := by
  unfold CSR.insert at h
  unfold insertProg
  by_cases hz : isZero value
  · rw [if_pos hz] at h ⊢
    simp only [Out.ok.injEq, Prod.mk.injEq] at h
    rw [h.1]
  · rw [if_neg hz] at h ⊢
    obtain ⟨cols, h1, h⟩ := ok_of_bind h
    obtain ⟨values, h2, h⟩ := ok_of_bind h
    obtain ⟨rs, h3, h⟩ := ok_of_bind h
    simp only [Out.ok.injEq, Prod.mk.injEq] at h
    rw [← h.1, wrCSR_run (s' := { s with cols := cols }) (by rw [h1]; rfl),
      wrCSR_run (s' := { s with cols := cols, values := values }) (by dsimp only; rw [h2]; rfl)]
    exact bumpProg_run _ _ _ _ { s with cols := cols, values := values } rs h3

theorem removeProg_run {s s' : CSR T} {pointer r : Nat} {k : Prog (Mat T) (Out (Val T))}
    (h : s.remove pointer r = .ok s') :
    (removeProg s.r pointer r k).run (.csr s) = k.run (.csr s') := by
  unfold CSR.remove at h
  unfold removeProg
  obtain ⟨cols, h1, h⟩ := ok_of_bind h
  obtain ⟨values, h2, h⟩ := ok_of_bind h
  obtain ⟨rs, h3, h⟩ := ok_of_bind h
  simp only [Out.ok.injEq] at h
  rw [← h, wrCSR_run (s' := { s with cols := cols }) (by rw [h1]; rfl),
    wrCSR_run (s' := { s with cols := cols, values := values }) (by dsimp only; rw [h2]; rfl)]
  exact bumpProg_run _ _ _ _ { s with cols := cols, values := values } rs h3

theorem searchProg_run (c : Nat) (k : Nat → Nat → Prog (Mat T) (Out (Val T))) (s : CSR T) :
    ∀ (fuel a b : Nat) (x : Nat × Nat), CSR.search s.cols c fuel a b = .ok x →
    (searchProg c k fuel a b).run (.csr s) = (k x.1 x.2).run (.csr s) ∧
    ((k x.1 x.2).Quiet (.csr s) → (searchProg c k fuel a b).Quiet (.csr s)) := by
  intro fuel
  induction fuel with
  | zero =>
    intro a b x h
    unfold CSR.search at h
    unfold searchProg
    by_cases hab : a < b
    · rw [if_pos hab] at h; cases h
    · rw [if_neg hab] at h ⊢
      simp only [Out.ok.injEq] at h
      subst h; exact ⟨rfl, fun h => h⟩
  | succ fuel ih =>
    intro a b x h
    unfold CSR.search at h
    unfold searchProg
    by_cases hab : a < b
    · rw [if_pos hab] at h ⊢
      obtain ⟨y, h1, h⟩ := ok_of_bind h
      rw [rdCSR_run h1]
      split at h
      · rename_i hc
        obtain ⟨g1, g2⟩ := ih _ _ _ h
        exact ⟨by rw [if_pos hc, g1], fun hq => rdCSR_quiet h1 (by rw [if_pos hc]; exact g2 hq)⟩
      · rename_i hc
        split at h
        · rename_i hc'
          obtain ⟨g1, g2⟩ := ih _ _ _ h
          exact ⟨by rw [if_neg hc, if_pos hc', g1],
            fun hq => rdCSR_quiet h1 (by rw [if_neg hc, if_pos hc']; exact g2 hq)⟩
        · rename_i hc'
          simp only [Out.ok.injEq] at h
          subst h
          exact ⟨by rw [if_neg hc, if_neg hc'], fun hq => rdCSR_quiet h1 (by rw [if_neg hc, if_neg hc']; exact hq)⟩
    · rw [if_neg hab] at h ⊢
      simp only [Out.ok.injEq] at h
      subst h; exact ⟨rfl, fun h => h⟩

theorem indexProg_run {s : CSR T} {r c : Nat} {x : Nat × Nat} (k : Nat → Nat → Prog (Mat T) (Out (Val T)))
    (h : s.columnIndex r c = .ok x) :
    (indexProg r c k).run (.csr s) = (k x.1 x.2).run (.csr s) ∧
    ((k x.1 x.2).Quiet (.csr s) → (indexProg r c k).Quiet (.csr s)) := by
  unfold CSR.columnIndex at h
  unfold indexProg
  obtain ⟨start, h1, h⟩ := ok_of_bind h
  obtain ⟨stop, h2, h⟩ := ok_of_bind h
  have key : ∀ p : Prog (Mat T) (Out (Val T)), p = (if start = stop then k start stop
      else rdCSR (fun m => idxPred m.cols stop) fun last =>
        if c > last then k stop stop else searchProg c k (stop - start) start stop) →
      p.run (.csr s) = (k x.1 x.2).run (.csr s) ∧ ((k x.1 x.2).Quiet (.csr s) → p.Quiet (.csr s)) := by
    intro p hp
    by_cases he : start = stop
    · rw [if_pos he] at h hp
      simp only [Out.ok.injEq] at h
      subst h hp; exact ⟨rfl, fun h => h⟩
    · rw [if_neg he] at h hp
      obtain ⟨last, h3, h⟩ := ok_of_bind h
      subst hp
      rw [rdCSR_run h3]
      by_cases hc : c > last
      · rw [if_pos hc] at h
        simp only [Out.ok.injEq] at h
        subst h
        exact ⟨by rw [if_pos hc], fun hq => rdCSR_quiet h3 (by rw [if_pos hc]; exact hq)⟩
      · rw [if_neg hc] at h
        obtain ⟨g1, g2⟩ := searchProg_run c k s _ _ _ _ h
        exact ⟨by rw [if_neg hc, g1], fun hq => rdCSR_quiet h3 (by rw [if_neg hc]; exact g2 hq)⟩
  obtain ⟨g1, g2⟩ := key _ rfl
  rw [rdCSR_run h1, rdCSR_run h2]
  exact ⟨g1, fun hq => rdCSR_quiet h1 (rdCSR_quiet h2 (g2 hq))⟩

theorem storeProg_run {β : Type} {s s' : CSR T} {r c pStart pEnd : Nat} {f : T → β × T} {val : β → Val T} {b : β}
    (h : (do
      let found ← s.hit pStart pEnd c
      if found then do
        let old ← idx s.values pStart
        let value := (f old).2
        if isZero value then do
          let s' ← s.remove pStart r
          .ok ((f old).1, s', pStart, 0)
        else do
          let values ← setIdx s.values pStart value
          .ok ((f old).1, { s with values := values }, pStart, 0)
      else do
        let (s', row) ← s.insert pStart r c (f 0).2
        .ok ((f 0).1, s', pStart, row) : Out (β × CSR T × Nat × Nat)) = .ok (b, s', p, row)) :
    (storeProg s.r r c f val pStart pEnd).run (.csr s) = (.ok (val b), .csr s') := by
  have miss : ∀ p row, (do
        let (s', row) ← s.insert pStart r c (f 0).2
        .ok ((f 0).1, s', pStart, row) : Out (β × CSR T × Nat × Nat)) = .ok (b, s', p, row) →
      (insertProg s.r pStart r c (f 0).2 (.done (.ok (val (f 0).1)))).run (.csr s) = (.ok (val b), .csr s') := by
    intro p row h
    obtain ⟨⟨s1, row1⟩, h1, h⟩ := ok_of_bind h
    simp only [Out.ok.injEq, Prod.mk.injEq] at h
    obtain ⟨rfl, rfl, -⟩ := h
    rw [insertProg_run h1]
    rfl
  unfold storeProg
  dsimp only
  unfold CSR.hit at h
  by_cases hp : pStart < pEnd
  · rw [if_pos hp] at h ⊢
    obtain ⟨found, h1, h⟩ := ok_of_bind h
    obtain ⟨x, h2, h1⟩ := ok_of_bind h1
    simp only [Out.ok.injEq] at h1
    subst h1
    rw [rdCSR_run h2]
    by_cases hx : x = c
    · rw [if_pos hx]
      rw [if_pos (by simpa using hx)] at h
      obtain ⟨old, h3, h⟩ := ok_of_bind h
      rw [rdCSR_run h3]
      by_cases hz : isZero (f old).2
      · rw [if_pos hz] at h ⊢
        obtain ⟨s1, h4, h⟩ := ok_of_bind h
        simp only [Out.ok.injEq, Prod.mk.injEq] at h
        obtain ⟨rfl, rfl, -⟩ := h
        rw [removeProg_run h4]
        rfl
      · rw [if_neg hz] at h ⊢
        obtain ⟨values, h4, h⟩ := ok_of_bind h
        simp only [Out.ok.injEq, Prod.mk.injEq] at h
        obtain ⟨rfl, rfl, -⟩ := h
        rw [wrCSR_run (s' := { s with values := values }) (by rw [h4]; rfl)]
        rfl
    · rw [if_neg hx]
      rw [if_neg (by simpa using hx)] at h
      exact miss _ _ h
  · rw [if_neg hp] at h ⊢
    simp only [Out.ok_bind, Bool.false_eq_true, if_false] at h
    exact miss _ _ h

theorem updateProg_run {β : Type} {s s' : CSR T} {r c : Int} {f : T → β × T} (val : β → Val T) {b : β}
    (h0 : s.updateWith r c f = .ok (b, s')) : (updateProg r c f val).run (.csr s) = (.ok (val b), .csr s') := by
  unfold CSR.updateWith at h0
  obtain ⟨⟨b1, s1, p, row⟩, h, h'⟩ := ok_of_bind h0
  clear h0
  simp only [Out.ok.injEq, Prod.mk.injEq] at h'
  obtain ⟨rfl, rfl⟩ := h'
  unfold CSR.updateRP at h
  unfold updateProg
  rw [rdCSR_run (a := (s.r, s.c)) rfl]
  dsimp only
  by_cases hr : inRange r s.r
  · rw [if_pos hr] at h ⊢
    by_cases hc : inRange c s.c
    · rw [if_pos hc] at h ⊢
      obtain ⟨⟨pStart, pEnd⟩, h1, h2⟩ := ok_of_bind h
      rw [(indexProg_run _ h1).1]
      exact storeProg_run h2
    · rw [if_neg hc] at h; cases h
  · rw [if_neg hr] at h; cases h

theorem updateProg_panic {β : Type} {s : CSR T} {r c : Int} {f : T → β × T} (val : β → Val T)
    (h : ¬ (inRange r s.r = true ∧ inRange c s.c = true)) :
    (updateProg r c f val).run (.csr s) = (.panic, .csr s) ∧ (updateProg r c f val).Quiet (.csr s) := by
  unfold updateProg
  rw [rdCSR_run (a := (s.r, s.c)) rfl]
  have key : ∀ q : Prog (Mat T) (Out (Val T)), (if inRange r s.r = true then if inRange c s.c = true then q else .done .panic
      else .done .panic) = .done .panic := by
    intro q
    by_cases hr : inRange r s.r
    · rw [if_pos hr, if_neg (fun hc => h ⟨hr, hc⟩)]
    · rw [if_neg hr]
  refine ⟨?_, rdCSR_quiet (a := (s.r, s.c)) rfl ?_⟩
  · dsimp only; rw [key]; rfl
  · dsimp only; rw [key]; trivial

/-- A read that finds what it writes back changes nothing on the way. -/
theorem storeProg_quiet {β : Type} {s : CSR T} {r c pStart pEnd : Nat} {f : T → β × T} {val : β → Val T} {found : Bool}
    (hf : ∀ v, (f v).2 = v) (h0 : isZero (0 : T) = true)
    (hh : s.hit pStart pEnd c = .ok found)
    (hs : found = true → ∃ old, idx s.values pStart = .ok old ∧ isZero old = false) :
    (storeProg s.r r c f val pStart pEnd).Quiet (.csr s) := by
  have miss : (insertProg s.r pStart r c (f 0).2 (.done (.ok (val (f 0).1)))).Quiet (.csr s) := by
    unfold insertProg
    rw [hf, if_pos h0]
    trivial
  unfold storeProg
  dsimp only
  unfold CSR.hit at hh
  by_cases hp : pStart < pEnd
  · rw [if_pos hp] at hh ⊢
    obtain ⟨x, h1, h2⟩ := ok_of_bind hh
    simp only [Out.ok.injEq] at h2
    subst h2
    refine rdCSR_quiet h1 ?_
    by_cases hx : x = c
    · rw [if_pos hx]
      obtain ⟨old, h3, h4⟩ := hs (by simpa using hx)
      refine rdCSR_quiet h3 ?_
      rw [hf, if_neg (by rw [h4]; simp)]
      simp only [idx] at h3
      split at h3
      · rename_i a ha
        simp only [Out.ok.injEq] at h3
        subst h3
        obtain ⟨hl, ha⟩ := List.getElem?_eq_some_iff.1 ha
        have hset : s.values.set pStart a = s.values := by rw [← ha]; exact List.set_getElem_self hl
        simp only [wrCSR, Prog.Quiet, setIdx, hl, if_true, Out.ok_bind, hset, and_true]
      · cases h3
    · rw [if_neg hx]; exact miss
  · rw [if_neg hp]; exact miss

theorem updateProg_quiet {β : Type} [GoStore T] {s : CSR T} {rows : List (List (Nat × T))} (h : CSR.Rep s rows)
    {r c : Int} {f : T → β × T} (hf : ∀ v, (f v).2 = v) (val : β → Val T) :
    (updateProg r c f val).Quiet (.csr s) := by
  by_cases hv : inRange r s.r = true ∧ inRange c s.c = true
  · obtain ⟨h1, h2⟩ := hv
    obtain ⟨a1, a2⟩ := inRange_iff.1 h1
    obtain ⟨b1, b2⟩ := inRange_iff.1 h2
    obtain ⟨i, rfl⟩ := Int.eq_ofNat_of_zero_le a1
    obtain ⟨j, rfl⟩ := Int.eq_ofNat_of_zero_le b1
    have hi : i < s.r := by exact_mod_cast a2
    have hi' : i < rows.length := by rw [h.len]; exact hi
    obtain ⟨L, M, R, old, hs⟩ := rowSplit_exists (h.sorted _ (List.getElem_mem hi')) j
    obtain ⟨e', g1, g2⟩ := h.columnIndex_ok hi hs
    unfold updateProg
    refine rdCSR_quiet (a := (s.r, s.c)) rfl ?_
    dsimp only
    rw [if_pos h1, if_pos h2]
    simp only [Int.toNat_natCast]
    refine (indexProg_run _ g1).2 (storeProg_quiet hf isZero_zero g2 ?_)
    intro hM
    rcases hs.mid with ⟨hM', -⟩ | hM'
    · simp [hM'] at hM
    · have hz : isZero old = false := by
        refine h.nz _ (List.getElem_mem hi') (j, old) ?_
        rw [hs.eq, hM']; simp
      refine ⟨old, ?_, hz⟩
      have e1 : s.values = ((rows.take i).flatten ++ L).map Prod.snd ++
          (old :: (R ++ (rows.drop (i + 1)).flatten).map Prod.snd) := by
        rw [h.values, h.flat hi, hs.eq, hM']; simp
      have e2 : offs rows i + L.length = (((rows.take i).flatten ++ L).map Prod.snd).length := by
        simp only [offs, List.length_map, List.length_append]
      rw [e1, e2]
      simp [idx]
  · exact (updateProg_panic val hv).2

/-! ## The methods -/

variable [GoStore T]

theorem set_nonneg {m m' : Mat T} {r c : Int} {v : T} (h : m.set r c v = .ok m') : 0 ≤ r ∧ 0 ≤ c := by
  by_contra hn
  have hv : ¬ m.Valid r c := fun hv => hn ⟨hv.1, hv.2.2.1⟩
  have hr : ∀ k : Nat, ¬ (inRange r k = true ∧ inRange c 1 = true) := fun k hh =>
    hn ⟨(inRange_iff.1 hh.1).1, (inRange_iff.1 hh.2).1⟩
  cases m with
  | csr s => rw [(C06_out_of_range_panics (.csr s) (by simp [Mat.kind]) hv v id).2.1] at h; cases h
  | csc s => rw [(C06_out_of_range_panics (.csc s) (by simp [Mat.kind]) hv v id).2.1] at h; cases h
  | dense s => rw [(C06_out_of_range_panics (.dense s) (by simp [Mat.kind]) hv v id).2.1] at h; cases h
  | dvec s =>
    have := hr s.l
    by_cases h1 : inRange r s.l <;> by_cases h2 : inRange c 1 <;> simp [Mat.set, DVec.set, h1, h2] at h this
  | svec s =>
    have := hr s.l
    by_cases h1 : inRange r s.l <;> by_cases h2 : inRange c 1 <;> simp [Mat.set, SVec.set, h1, h2] at h this

theorem update_nonneg {m m' : Mat T} {r c : Int} {f : T → T} (h : m.update r c f = .ok m') : 0 ≤ r ∧ 0 ≤ c := by
  by_contra hn
  have hv : ¬ m.Valid r c := fun hv => hn ⟨hv.1, hv.2.2.1⟩
  have hr : ∀ k : Nat, ¬ (inRange r k = true ∧ inRange c 1 = true) := fun k hh =>
    hn ⟨(inRange_iff.1 hh.1).1, (inRange_iff.1 hh.2).1⟩
  cases m with
  | csr s => rw [(C06_out_of_range_panics (.csr s) (by simp [Mat.kind]) hv 0 f).2.2] at h; cases h
  | csc s => rw [(C06_out_of_range_panics (.csc s) (by simp [Mat.kind]) hv 0 f).2.2] at h; cases h
  | dense s => rw [(C06_out_of_range_panics (.dense s) (by simp [Mat.kind]) hv 0 f).2.2] at h; cases h
  | dvec s =>
    have := hr s.l
    by_cases h1 : inRange r s.l <;> by_cases h2 : inRange c 1 <;>
      simp [Mat.update, DVec.update, DVec.updateWith, h1, h2] at h this
  | svec s =>
    have := hr s.l
    by_cases h1 : inRange r s.l <;> by_cases h2 : inRange c 1 <;>
      simp [Mat.update, SVec.update, SVec.updateWith, h1, h2] at h this

/-- The calls that write keep the matrix one a program can obtain. -/
theorem alone_reach (gas : Nat) {m : Method T} (hm : m.mode = .write) {s : Mat T} (hs : Reach s) :
    Reach (m.alone gas s).2 := by
  cases m <;> simp only [Method.mode, reduceCtorEq] at hm
  · rename_i r c f
    simp only [Method.alone]
    cases h : s.update r c f with
    | ok s' =>
      obtain ⟨h1, h2⟩ := update_nonneg h
      obtain ⟨i, rfl⟩ := Int.eq_ofNat_of_zero_le h1
      obtain ⟨j, rfl⟩ := Int.eq_ofNat_of_zero_le h2
      exact Reach.call (.update i j f) hs h
    | panic => exact hs
    | hang => exact hs
  · rename_i r c v
    simp only [Method.alone]
    cases h : s.set r c v with
    | ok s' =>
      obtain ⟨h1, h2⟩ := set_nonneg h
      obtain ⟨i, rfl⟩ := Int.eq_ofNat_of_zero_le h1
      obtain ⟨j, rfl⟩ := Int.eq_ofNat_of_zero_le h2
      exact Reach.call (.set i j v) hs h
    | panic => exact hs
    | hang => exact hs

theorem worldOf_inv {gas : Nat} {l : List (Mat T)} (h : ∀ m ∈ l, Reach m) :
    ∀ q, ((World.of gas l).heap q).Inv := by
  intro q
  show (l.getD q (.dvec ⟨0, []⟩)).Inv
  by_cases hq : q < l.length
  · have : l.getD q (.dvec ⟨0, []⟩) = l[q] := by simp [List.getD, hq]
    rw [this]
    exact (h _ (List.getElem_mem hq)).inv
  · have : l.getD q (.dvec ⟨0, []⟩) = .dvec ⟨0, []⟩ := by simp [List.getD, hq]
    rw [this]
    exact (Reach.newDVec 0).inv

theorem drop_world {α : Type} (x : M T α) (w : World T) : ((x >>= fun _ => pure ()) w).world = (x w).world := by
  rw [M.bind_apply]
  cases x w <;> rfl

/-- The methods that read leave the matrix as it is. -/
theorem alone_same (gas : Nat) {m : Method T} (hm : m.mode ≠ .write) (hS : m.Sound) {s : Mat T} (hs : Reach s) :
    (m.alone gas s).2 = s := by
  have h1 : ∀ (call : MethCall T), (call.run (World.of gas [s])).world.heap 0 = s := fun call =>
    C23_methods_change_nothing (World.of gas [s]) call (worldOf_inv (by simpa using hs)) 0 (Nat.zero_lt_one)
  have h2 : ∀ (call : MethCall T) (a : Mat T), Reach a → (call.run (World.of gas [s, a])).world.heap 0 = s :=
    fun call a ha => C23_methods_change_nothing (World.of gas [s, a]) call
      (worldOf_inv (by simp only [List.mem_cons, List.not_mem_nil, or_false]; rintro m (rfl | rfl) <;> assumption)) 0
      (Nat.zero_lt_two)
  have h3 : ∀ {α : Type} (val : α → Val T) (x : Out α),
      (effect s val (do let v ← x; .ok (v, s))).2 = s := by
    intro α val x; cases x <;> rfl
  cases m <;> simp only [Method.mode, ne_eq, not_true_eq_false, Method.Sound] at hm hS
  case at' r c =>
    simp only [Method.alone]
    cases h : s.at' r c with
    | ok x => exact (hs.inv.reads_preserve r c).1 x.1 x.2 h
    | panic => rfl
    | hang => rfl
  case element r c =>
    simp only [Method.alone]
    cases h : s.element r c with
    | ok x => exact (hs.inv.reads_preserve r c).2 x.1 x.2 h
    | panic => rfl
    | hang => rfl
  case columnsAt c => exact h3 _ _
  case rowsAt c => exact h3 _ _
  case rowsAtToArray c => exact h3 _ _
  case copy => exact h3 _ _
  case scalar a => have := h1 (.scalar 0 a); rw [MethCall.run, drop_world] at this; exact this
  case negative => have := h1 (.negative 0); rw [MethCall.run, drop_world] at this; exact this
  case transpose => have := h1 (.transpose 0); rw [MethCall.run, drop_world] at this; exact this
  case multiply a => have := h2 (.multiply 0 1) a hS; rw [MethCall.run, drop_world] at this; exact this
  case add a => have := h2 (.add 0 1) a hS; rw [MethCall.run, drop_world] at this; exact this
  case subtract a => have := h2 (.subtract 0 1) a hS; rw [MethCall.run, drop_world] at this; exact this
  case equal a => have := h2 (.equal 0 1) a hS; rw [MethCall.run, drop_world] at this; exact this
  case notEqual a => have := h2 (.notEqual 0 1) a hS; rw [MethCall.run, drop_world] at this; exact this
  all_goals rfl

theorem atomic_run (gas : Nat) (m : Method T) (s : Mat T) : (m.atomic gas).run s = m.alone gas s := rfl

theorem atomic_quiet (gas : Nat) {m : Method T} (hm : m.mode ≠ .write) (hS : m.Sound) {s : Mat T} (hs : Reach s) :
    (m.atomic gas).Quiet s := ⟨alone_same gas hm hS hs, trivial⟩

theorem atomic_silent (gas : Nat) {m : Method T} (hm : m.mode = .free) (hS : m.Sound) : (m.atomic gas).Silent := by
  cases m <;> simp only [Method.mode, reduceCtorEq, Method.Sound] at hm hS <;> exact ⟨fun _ => rfl, fun _ => trivial⟩

/-- Each method in one access. -/
theorem atomic_splits (gas : Nat) : Splits gas (Method.atomic gas : Method T → _) where
  run := fun m _ s _ => atomic_run gas m s
  quiet := fun m hS hm s hs => atomic_quiet gas (by rw [hm]; simp) hS hs
  silent := fun m hS hm => atomic_silent gas hm hS

theorem byFormat_run {gas : Nat} {m : Method T} {p q : Prog (Mat T) (Out (Val T))} {s : Mat T}
    (h : ∀ s', s = .csr s' → p.run s = m.alone gas s) (h' : ∀ s', s = .csc s' → q.run s = m.alone gas s) :
    (m.byFormat gas p q).run s = m.alone gas s := by
  cases s with
  | csr s' => exact h s' rfl
  | csc s' => exact h' s' rfl
  | _ => rfl

theorem byFormat_quiet {gas : Nat} {m : Method T} {p q : Prog (Mat T) (Out (Val T))} {s : Mat T}
    (h : ∀ s', s = .csr s' → p.Quiet s) (h' : ∀ s', s = .csc s' → q.Quiet s) (ha : (m.atomic gas).Quiet s) :
    (m.byFormat gas p q).Quiet s := by
  cases s with
  | csr s' => exact ⟨rfl, h s' rfl⟩
  | csc s' => exact ⟨rfl, h' s' rfl⟩
  | _ => exact ⟨rfl, ha⟩

theorem updateProg_alone {β : Type} {s : CSR T} (hs : Reach (Mat.csr s)) (r c : Int) (f : T → β × T) (val : β → Val T) :
    (updateProg r c f val).run (.csr s) =
      effect (.csr s) val (do let (b, s') ← s.updateWith r c f; .ok (b, .csr s')) := by
  by_cases hv : inRange r s.r = true ∧ inRange c s.c = true
  · obtain ⟨a1, a2⟩ := inRange_iff.1 hv.1
    obtain ⟨b1, b2⟩ := inRange_iff.1 hv.2
    obtain ⟨i, rfl⟩ := Int.eq_ofNat_of_zero_le a1
    obtain ⟨j, rfl⟩ := Int.eq_ofNat_of_zero_le b1
    obtain ⟨rows, h⟩ := hs.wf (by simp [Mat.kind])
    obtain ⟨s', rows', h1, -⟩ := h.updateWith_cells (i := i) (j := j) (by exact_mod_cast a2) (by exact_mod_cast b2) f
    rw [updateProg_run val h1, h1]
    rfl
  · rw [(updateProg_panic val hv).1, CSR.updateWith_panic s r c f hv]
    rfl

theorem updateProgC_alone {β : Type} {s : CSC T} (hs : Reach (Mat.csc s)) (r c : Int) (f : T → β × T) (val : β → Val T) :
    (updateProgC r c f val).run (.csc s) =
      effect (.csc s) val (do let (b, s') ← s.updateWith r c f; .ok (b, .csc s')) := by
  rw [updateProg_conj, conj_run, swap_csc, CSC.updateWith_eq]
  by_cases hv : inRange c (CSC.mir s).r = true ∧ inRange r (CSC.mir s).c = true
  · obtain ⟨a1, a2⟩ := inRange_iff.1 hv.1
    obtain ⟨b1, b2⟩ := inRange_iff.1 hv.2
    obtain ⟨i, rfl⟩ := Int.eq_ofNat_of_zero_le a1
    obtain ⟨j, rfl⟩ := Int.eq_ofNat_of_zero_le b1
    obtain ⟨rows, h⟩ := hs.wf (by simp [Mat.kind])
    obtain ⟨s', rows', h1, -⟩ := CSR.Rep.updateWith_cells (s := CSC.mir s) h (i := i) (j := j)
      (by exact_mod_cast a2) (by exact_mod_cast b2) f
    rw [updateProg_run val h1, h1]
    rfl
  · rw [(updateProg_panic val hv).1, CSR.updateWith_panic (CSC.mir s) c r f hv]
    rfl

theorem updateProgC_quiet {β : Type} {s : CSC T} (hs : Reach (Mat.csc s)) {r c : Int} {f : T → β × T}
    (hf : ∀ v, (f v).2 = v) (val : β → Val T) : (updateProgC r c f val).Quiet (.csc s) := by
  obtain ⟨rows, h⟩ := hs.wf (by simp [Mat.kind])
  rw [updateProg_conj]
  exact conj_quiet (updateProg_quiet (s := CSC.mir s) h hf val)

/-- The methods of CSR and CSC access by access. -/
theorem fine_splits (gas : Nat) : Splits gas (Method.fine gas : Method T → _) where
  run := by
    intro m hS s hs
    cases m
    case at' r c =>
      refine byFormat_run ?_ ?_ <;> rintro s' rfl
      · exact updateProg_alone hs r c _ _
      · exact updateProgC_alone hs r c _ _
    case element r c =>
      refine byFormat_run ?_ ?_ <;> rintro s' rfl
      · exact updateProg_alone hs r c _ _
      · exact updateProgC_alone hs r c _ _
    case set r c v =>
      refine byFormat_run ?_ ?_ <;> rintro s' rfl
      · rw [updateProg_alone hs r c _ _]
        simp only [Method.alone, Mat.set, CSR.set, CSR.update]
        cases s'.updateWith r c (fun _ => ((), v)) <;> rfl
      · rw [updateProgC_alone hs r c _ _]
        simp only [Method.alone, Mat.set, CSC.set, CSC.update]
        cases s'.updateWith r c (fun _ => ((), v)) <;> rfl
    case update r c f =>
      refine byFormat_run ?_ ?_ <;> rintro s' rfl
      · rw [updateProg_alone hs r c _ _]
        simp only [Method.alone, Mat.update, CSR.update]
        cases s'.updateWith r c (fun v => ((), f v)) <;> rfl
      · rw [updateProgC_alone hs r c _ _]
        simp only [Method.alone, Mat.update, CSC.update]
        cases s'.updateWith r c (fun v => ((), f v)) <;> rfl
    case clear => exact hS.elim
    all_goals exact atomic_run gas _ s
  quiet := by
    intro m hS hm s hs
    have ha : (m.atomic gas).Quiet s := atomic_quiet gas (by rw [hm]; simp) hS hs
    cases m <;> simp only [Method.mode, reduceCtorEq] at hm
    case at' r c =>
      refine byFormat_quiet ?_ ?_ ha <;> rintro s' rfl
      · obtain ⟨rows, h⟩ := hs.wf (by simp [Mat.kind])
        exact updateProg_quiet h (fun _ => rfl) _
      · exact updateProgC_quiet hs (fun _ => rfl) _
    case element r c =>
      refine byFormat_quiet ?_ ?_ ha <;> rintro s' rfl
      · obtain ⟨rows, h⟩ := hs.wf (by simp [Mat.kind])
        exact updateProg_quiet h (fun _ => rfl) _
      · exact updateProgC_quiet hs (fun _ => rfl) _
    case clear => exact hS.elim
    all_goals exact ha
  silent := by
    intro m hS hm
    have ha : (m.atomic gas).Silent := atomic_silent gas hm hS
    cases m <;> simp only [Method.mode, reduceCtorEq] at hm <;> exact ha

theorem Splits.calls {gas : Nat} {body : Method T → Prog (Mat T) (Out (Val T))} (h : Splits gas body) :
    Calls Method.mode body (Method.alone gas) Method.Sound Reach where
  run := h.run
  keep := fun _ _ hm _ hs => alone_reach gas hm hs
  quiet := h.quiet
  silent := h.silent

/-! ## Running a schedule -/

section
variable {n : Nat} {μ S R : Type}

/-- The step of goroutine `i`, if it can make one. -/
def next (mode : μ → Mode) (body : μ → Prog S R) (c : Conf n μ S R) (i : Fin n) : Option (Conf n μ S R) :=
  match c.thr i with
  | ⟨[], .idle, _⟩ => none
  | ⟨m :: rest, .idle, res⟩ =>
    match mode m with
    | .write => if c.pending = false then some ({ c with pending := true }.put i ⟨rest, .waiting m, res⟩) else none
    | .read => if c.pending = false then
        some ({ c with readers := c.readers + 1, order := c.order ++ [(i, m)] }.put i ⟨rest, .inside m (body m), res⟩)
      else none
    | .free => some (c.put i ⟨rest, .inside m (body m), res⟩)
  | ⟨rest, .waiting m, res⟩ =>
    if c.readers = 0 then some ({ c with order := c.order ++ [(i, m)] }.put i ⟨rest, .inside m (body m), res⟩) else none
  | ⟨rest, .inside m (.act f k), res⟩ => some ({ c with mat := f c.mat }.put i ⟨rest, .inside m (k c.mat), res⟩)
  | ⟨rest, .inside m (.done r), res⟩ => some ((c.release (mode m)).put i ⟨rest, .idle, res ++ [(m, r)]⟩)

theorem next_step {mode : μ → Mode} {body : μ → Prog S R} {c c' : Conf n μ S R} {i : Fin n}
    (h : next mode body c i = some c') : Step mode body c c' := by
  unfold next at h
  split at h
  · cases h
  · rename_i e
    split at h
    · rename_i hm
      split at h
      · rename_i hp; cases h; exact .announce i e hm hp
      · cases h
    · rename_i hm
      split at h
      · rename_i hp; cases h; exact .rlock i e hm hp
      · cases h
    · rename_i hm; cases h; exact .enter i e hm
  · rename_i e
    split at h
    · rename_i hp; cases h; exact .lock i e hp
    · cases h
  · rename_i e; cases h; exact .act i e
  · rename_i e; cases h; exact .leave i e

/-- The steps of the goroutines in `l`, in this order. -/
def exec (mode : μ → Mode) (body : μ → Prog S R) : List (Fin n) → Conf n μ S R → Option (Conf n μ S R)
  | [], c => some c
  | i :: l, c => (next mode body c i).bind (exec mode body l)

theorem exec_steps {mode : μ → Mode} {body : μ → Prog S R} {c0 : Conf n μ S R} : ∀ {l : List (Fin n)}
    {c c' : Conf n μ S R}, Steps mode body c0 c → exec mode body l c = some c' → Steps mode body c0 c' := by
  intro l
  induction l with
  | nil => intro c c' h0 h; cases h; exact h0
  | cons i l ih =>
    intro c c' h0 h
    simp only [exec, Option.bind_eq_some_iff] at h
    obtain ⟨c1, h1, h2⟩ := h
    exact ih (h0.tail (next_step h1)) h2

end

end Mutex
end GB
