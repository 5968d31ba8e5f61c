import Verif.Lemmas.SearchCut

/-!
# The loop of a search whose predicate cancels the context
-/

namespace GB

set_option linter.unusedSectionVars false

/-- A predicate that only looks at the vector `v` it is called on: it answers `g v`, and cancels the context of the search
if `h v`. -/
def Quits {T : Type} [GoNum T] (c : Ref → M T Bool) (g h : Mat T → Bool) : Prop :=
  ∀ p (w : World T), c p w = .ok (g (w.heap p)) { w with cancel := if h (w.heap p) then some 0 else w.cancel }

namespace BFS
open M

variable {T : Type} [GoRing T] [GoLawful T]

theorem IsVec.ext {v v' : Mat T} {n : Nat} (h : IsVec v n) (h' : IsVec v' n) (e : ∀ i, i < n → v.val i 0 = v'.val i 0) :
    v = v' := by
  cases v with
  | dvec s =>
    cases v' with
    | dvec s' =>
      obtain ⟨a1, -, a3⟩ := h
      obtain ⟨b1, -, b3⟩ := h'
      have a1 : s.WF := a1
      have b1 : s'.WF := b1
      have a3 : s.l = n := a3
      have b3 : s'.l = n := b3
      have hl : s.values.length = n := a1.trans a3
      have hl' : s'.values.length = n := b1.trans b3
      have : s.values = s'.values := by
        refine List.ext_getElem (by rw [hl, hl']) fun i hi hi' => ?_
        have := e i (by omega)
        rw [Mat.val_dvec a1 (by omega), Mat.val_dvec b1 (by omega)] at this
        simpa [DVec.cell, hi, hi'] using this
      cases s; cases s'
      simp_all
    | _ => cases h'.kind
  | _ => cases h.kind

/-- Once the context is cancelled the search goes through its remaining rounds and finds nothing. -/
theorem turnsBy_dead {w0 : World T} {n : Nat} {a visited result : Ref} {c : Ref → M T Bool} {g h : Mat T → Bool}
    (hq : Quits c g h) (hg0 : ∀ v, IsVec v n → (∀ i, i < n → v.val i 0 = 0) → g v = false) (hn : 0 < n) (hg : n ≤ w0.gas) :
    ∀ (r : Nat) (w : World T) (frontier : Ref) (f seen : Nat → T), St w0 (uncut w) n a visited result frontier f seen →
      w.cancel = some 0 → ∃ u, turnsBy a visited result c r frontier w = .ok () u ∧
        (∀ q, q < w0.next → u.heap q = w.heap q) ∧ IsVec (u.heap result) n ∧ (∀ i, i < n → (u.heap result).val i 0 = 0) := by
  intro r
  induction r with
  | zero =>
    intro w frontier f seen H hc
    exact ⟨w, rfl, fun _ _ => rfl, H.fit.vec, H.mr⟩
  | succ r ih =>
    intro w frontier f seen H hc
    obtain ⟨v, k1, e1, hv, -, -, p3⟩ := H.mulAny hc hn
    obtain ⟨rfl, p4⟩ := p3 rfl
    set w1 := w.upd result v (some 0) with hw1
    have e1r : w1.heap result = v := World.upd_out ..
    have e1o : ∀ q, q ≠ result → w1.heap q = w.heap q := fun q hq => World.upd_ne _ _ _ hq
    have hA : ∀ q, q < w0.next → w1.heap q = w.heap q := fun q hq => e1o q (Nat.ne_of_lt (Nat.lt_of_lt_of_le hq H.oR))
    have ec : c result w1 = .ok false w1 := by
      rw [hq result w1, e1r, hg0 v hv p4]
      have : ({ w1 with cancel := if h v then some 0 else w1.cancel } : World T) = w1 := by
        have hw : w1.cancel = some 0 := rfl
        rw [hw, ite_self]
        exact cut_self hw
      rw [this]
    have F1 : Fit w0 (uncut w1) a result n :=
      ⟨by show Net (w1.heap a) n; rw [hA a H.oa]; exact H.fit.net, by show IsVec (w1.heap result) n; rw [e1r]; exact hv, rfl,
        H.fit.gas⟩
    have ev : w1.heap visited = w.heap visited := e1o _ H.vr
    obtain ⟨w2, seen', c2, g1, g2, g3, g4, -, g5⟩ := restAny (k := 0) rfl F1 (by rw [ev]; exact H.hv) (seen := seen)
      (by rw [ev]; exact H.mv) H.nv H.nr H.ov H.oR H.oa H.vr hg
    obtain rfl := g4 rfl
    obtain ⟨u, u1, u2, u3⟩ := ih w2 w1.next _ _ g5 g3
    refine ⟨u, ?_, fun q hq => ?_, u3⟩
    · rw [turnsBy, bind_ok e1, bind_ok ec, if_neg (by simp), g1]
      exact u1
    · rw [u2 q hq, g2 q hq, hA q hq]

/-- `v` is the `d`-th level (counted from 0). -/
def Lvl (W : Nat → Nat → T) (E : Nat → Nat → Prop) (n s d : Nat) (v : Mat T) : Prop :=
  IsVec v n ∧ LevelF W E n s (d + 1) (fun i => v.val i 0)

theorem Lvl.uniq {W : Nat → Nat → T} {E : Nat → Nat → Prop} {n s d : Nat} {v v' : Mat T} (h : Lvl W E n s d v)
    (h' : Lvl W E n s d v') : v = v' := by
  refine h.1.ext h'.1 fun i hi => ?_
  by_cases hd : Dist E s (d + 1) i
  · exact ((h.2 i hi).1 hd).trans ((h'.2 i hi).1 hd).symm
  · exact ((h.2 i hi).2 hd).trans ((h'.2 i hi).2 hd).symm

theorem turnsBy_quit {w0 : World T} {A : Mat T} {n s : Nat} {a visited result : Ref} {W : Nat → Nat → T}
    {E : Nat → Nat → Prop} {c : Ref → M T Bool} {g h : Mat T → Bool} (hA : w0.heap a = A) (hcols : A.cols = n)
    (hW : ∀ l r, W l r = A.val r l) (hE : ∀ l r, E l r ↔ l < n ∧ r < n ∧ W l r ≠ 0)
    (hz : GoNum.glt (0 : T) 0 = false) (hp : ∀ k i, i < n → Dist E s k i → GoNum.glt 0 (walkSum W n s k i) = true)
    (hq : Quits c g h) (hg0 : ∀ v, IsVec v n → (∀ i, i < n → v.val i 0 = 0) → g v = false) (hn : 0 < n) (hg : n ≤ w0.gas) :
    ∀ (r : Nat) (w : World T) (frontier : Ref) (f seen : Nat → T) (d : Nat), d + r = n →
      St w0 w n a visited result frontier f seen → (∀ q, q < w0.next → w.heap q = w0.heap q) →
      LevelF W E n s d f → SeenF W E n s d seen → (∀ e, e < d → ∀ v, Lvl W E n s e v → g v = false ∧ h v = false) →
      ∃ u, turnsBy a visited result c r frontier w = .ok () u ∧ (∀ q, q < w0.next → u.heap q = w0.heap q) ∧
        ((∃ e, e < n ∧ Lvl W E n s e (u.heap result) ∧ g (u.heap result) = true ∧
            ∀ e', e' < e → ∀ v, Lvl W E n s e' v → g v = false ∧ h v = false) ∨
         (IsVec (u.heap result) n ∧ (∀ i, i < n → (u.heap result).val i 0 = 0) ∧
            ∀ e v, e < n → Lvl W E n s e v → g v = true → ∃ e' v', e' < e ∧ Lvl W E n s e' v' ∧ h v' = true)) := by
  intro r
  induction r with
  | zero =>
    intro w frontier f seen d hd H ho hf hs hno
    refine ⟨w, rfl, ho, Or.inr ⟨H.fit.vec, H.mr, fun e v he hv hgv => ?_⟩⟩
    rw [(hno e (by omega) v hv).1] at hgv
    cases hgv
  | succ r ih =>
    intro w frontier f seen d hd H ho hf hs hno
    obtain ⟨v, e1, hv, mv⟩ := H.mul
    have hlv : Lvl W E n s d v := by
      refine ⟨hv, fun i hi => ?_⟩
      have := hf.step hE hz hs hp i hi
      simp only [mv i hi, ho a H.oa, hA]
      unfold nextLevel
      rw [hcols]
      simp only [hW] at this ⊢
      exact this
    set w1 := w.upd result v none with hw1
    have e1r : w1.heap result = v := World.upd_out ..
    have e1o : ∀ q, q ≠ result → w1.heap q = w.heap q := fun q hq => World.upd_ne _ _ _ hq
    have hA1 : ∀ q, q < w0.next → w1.heap q = w.heap q := fun q hq => e1o q (Nat.ne_of_lt (Nat.lt_of_lt_of_le hq H.oR))
    have ev : w1.heap visited = w.heap visited := e1o _ H.vr
    have ec := hq result w1
    rw [e1r] at ec
    set w1' : World T := { w1 with cancel := if h v then some 0 else w1.cancel } with hw1'
    cases hgv : g v with
    | true =>
      refine ⟨w1', ?_, fun q hq => (hA1 q hq).trans (ho q hq), Or.inl ⟨d, by omega, ?_, ?_, hno⟩⟩
      · rw [turnsBy, bind_ok e1, bind_ok ec, if_pos hgv]
        rfl
      · show Lvl W E n s d (w1.heap result)
        rw [e1r]; exact hlv
      · show g (w1.heap result) = true
        rw [e1r]; exact hgv
    | false =>
      have F1 : Fit w0 (uncut w1') a result n :=
        ⟨by show Net (w1.heap a) n; rw [hA1 a H.oa]; exact H.fit.net, by show IsVec (w1.heap result) n; rw [e1r]; exact hv, rfl,
          H.fit.gas⟩
      cases hhv : h v with
      | true =>
        have hc1 : w1'.cancel = some 0 := by rw [hw1']; simp [hhv]
        obtain ⟨w2, seen', c2, g1, g2, g3, g4, -, g5⟩ := restAny (k := 0) (u := w1') hc1 F1
          (by show IsVec (w1.heap visited) n; rw [ev]; exact H.hv) (seen := seen)
          (by show ∀ i, i < n → (w1.heap visited).val i 0 = seen i; rw [ev]; exact H.mv) H.nv H.nr H.ov H.oR H.oa H.vr hg
        obtain rfl := g4 rfl
        obtain ⟨u, u1, u2, u3, u4⟩ := turnsBy_dead hq hg0 hn hg r w2 _ _ _ g5 g3
        refine ⟨u, ?_, fun q hq => ?_, Or.inr ⟨u3, u4, fun e v' he hv' hgv' => ?_⟩⟩
        · rw [turnsBy, bind_ok e1, bind_ok ec, if_neg (by simp [hgv]), g1]
          exact u1
        · rw [u2 q hq, g2 q hq]
          exact (hA1 q hq).trans (ho q hq)
        · refine ⟨d, v, ?_, hlv, hhv⟩
          rcases lt_trichotomy e d with h1 | h1 | h1
          · rw [(hno e h1 v' hv').1] at hgv'; cases hgv'
          · subst h1
            rw [hv'.uniq hlv, hgv] at hgv'
            cases hgv'
          · exact h1
      | false =>
        have hc1 : w1' = w1 := by rw [hw1']; simp [hhv]
        rw [hc1] at F1 ec
        have F2 : Fit w0 w1 a result n := ⟨F1.net, F1.vec, rfl, F1.gas⟩
        obtain ⟨w2, g1, g2, g3⟩ := rest_ok F2 (by rw [ev]; exact H.hv) (seen := seen) (by rw [ev]; exact H.mv)
          H.nv H.nr H.ov H.oR H.oa H.vr hg
        have hf' : LevelF W E n s (d + 1) (fun i => (w1.heap result).val i 0) := by rw [e1r]; exact hlv.2
        obtain ⟨u, u1, u2⟩ := ih w2 w1.next _ _ (d + 1) (by omega) g3
          (fun q hq => by rw [g2 q hq, hA1 q hq, ho q hq]) hf' (SeenF.step hf' hs) (fun e he v' hv' => by
            by_cases hed : e = d
            · subst hed
              rw [hv'.uniq hlv]
              exact ⟨hgv, hhv⟩
            · exact hno e (by omega) v' hv')
        refine ⟨u, ?_, u2⟩
        rw [turnsBy, bind_ok e1, bind_ok ec, if_neg (by simp [hgv]), g1]
        exact u1

/-- What is asked of a predicate that may cancel the context: as `Civil`, but it may leave the context cancelled, and does so
if it finds it cancelled. -/
structure CivilCut (c : Ref → M T Bool) (w0 : World T) (a : Ref) (n : Nat) : Prop where
  fit : ∀ p w b u, Fit w0 (uncut w) a p n → w0.next ≤ p → p < w.next → c p w = .ok b u → Fit w0 (uncut u) a p n
  next : ∀ p w b u, Fit w0 (uncut w) a p n → w0.next ≤ p → p < w.next → c p w = .ok b u → w.next ≤ u.next
  own : ∀ p w b u q, Fit w0 (uncut w) a p n → w0.next ≤ p → p < w.next → c p w = .ok b u →
    w0.next ≤ q → q < w.next → q ≠ p → u.heap q = w.heap q
  live : ∀ p w b u, c p w = .ok b u → w.cancel = none → u.cancel = none ∨ u.cancel = some 0
  dead : ∀ p w b u, c p w = .ok b u → w.cancel = some 0 → u.cancel = some 0

theorem turnsBy_idle {w0 : World T} {n : Nat} {a visited result : Ref} {c : Ref → M T Bool} (hc : CivilCut c w0 a n)
    (hn : 0 < n) (hg : n ≤ w0.gas) : ∀ (k : Nat) (w last : World T) (frontier : Ref) (f seen : Nat → T),
      St w0 (uncut w) n a visited result frontier f seen → w.cancel = some 0 → (∀ q, q < w0.next → w.heap q = last.heap q) →
      Idle c result w0.next n k last
        ((turnsBy a visited result c k frontier >>= fun _ => (pure result : M T Ref)) w) := by
  intro k
  induction k with
  | zero =>
    intro w last frontier f seen h _ ho
    exact .over ho h.fit.vec.kind h.fit.vec.rows h.mr
  | succ k ih =>
    intro w last frontier f seen h hcan ho
    obtain ⟨v, k1, e1, hv, -, -, p3⟩ := h.mulAny hcan hn
    obtain ⟨rfl, p4⟩ := p3 rfl
    set w1 := w.upd result v (some 0) with hw1
    have e1r : w1.heap result = v := World.upd_out ..
    have e1o : ∀ q, q ≠ result → w1.heap q = w.heap q := fun q hq => World.upd_ne _ _ _ hq
    have hA : ∀ q, q < w0.next → w1.heap q = w.heap q := fun q hq => e1o q (Nat.ne_of_lt (Nat.lt_of_lt_of_le hq h.oR))
    have F1 : Fit w0 (uncut w1) a result n :=
      ⟨by show Net (w1.heap a) n; rw [hA a h.oa]; exact h.fit.net, by show IsVec (w1.heap result) n; rw [e1r]; exact hv, rfl,
        h.fit.gas⟩
    have blank : Blank result w0.next n last w1 :=
      ⟨fun q hq => (hA q hq).trans (ho q hq), by rw [e1r]; exact hv.wf, by rw [e1r]; exact hv.kind, by rw [e1r]; exact hv.rows,
        fun i hi => by rw [e1r, p4 i hi], rfl⟩
    have hrun : (turnsBy a visited result c (k + 1) frontier >>= fun _ => (pure result : M T Ref)) w =
        (c result >>= fun b => (if b then (pure () : M T Unit) else
          (Ops.elementWiseVectorAdd visited result .nil visited >>= fun _ => M.copy result >>= fun f =>
            M.clear result >>= fun _ => turnsBy a visited result c k f)) >>= fun _ => (pure result : M T Ref)) w1 := by
      rw [turnsBy, bind_apply, bind_ok e1]
      rw [bind_apply, bind_apply]
      cases c result w1 <;> rfl
    rw [hrun, bind_apply]
    cases hcw : c result w1 with
    | panic u => exact .panics blank hcw
    | hang u => exact .hangs blank hcw
    | ok b u =>
      cases b with
      | true => exact .found blank hcw
      | false =>
        refine .next blank hcw ?_
        have hnx := hc.next _ _ _ _ F1 h.oR h.nr hcw
        have hcu := hc.dead _ _ _ _ hcw rfl
        have ev : u.heap visited = w.heap visited := by
          rw [hc.own _ _ _ _ visited F1 h.oR h.nr hcw h.ov h.nv h.vr, e1o _ h.vr]
        obtain ⟨w2, seen', c2, g1, g2, g3, g4, -, g5⟩ := restAny hcu (hc.fit _ _ _ _ F1 h.oR h.nr hcw)
          (by rw [ev]; exact h.hv) (seen := seen) (by rw [ev]; exact h.mv)
          (Nat.lt_of_lt_of_le h.nv hnx) (Nat.lt_of_lt_of_le h.nr hnx) h.ov h.oR h.oa h.vr hg
        obtain rfl := g4 rfl
        have := ih w2 u u.next _ _ g5 g3 g2
        have hrest : ((Ops.elementWiseVectorAdd visited result .nil visited >>= fun _ => M.copy result >>= fun f =>
            M.clear result >>= fun _ => turnsBy a visited result c k f) >>= fun _ => (pure result : M T Ref)) u =
            (turnsBy a visited result c k u.next >>= fun _ => (pure result : M T Ref)) w2 := by
          rw [bind_apply, g1, bind_apply]
        rw [← hrest] at this
        exact this

theorem turnsBy_cut {w0 : World T} {n : Nat} {a visited result : Ref} {c : Ref → M T Bool} (hc : CivilCut c w0 a n)
    (hn : 0 < n) (hg : n ≤ w0.gas) : ∀ (k : Nat) (w last : World T) (frontier : Ref) (f seen : Nat → T),
      St w0 w n a visited result frontier f seen → (∀ q, q < w0.next → w.heap q = last.heap q) →
      RoundsCut c a result w0.next n k f seen last
        ((turnsBy a visited result c k frontier >>= fun _ => (pure result : M T Ref)) w) := by
  intro k
  induction k with
  | zero =>
    intro w last frontier f seen h ho
    exact .over ho h.fit.vec.kind h.fit.vec.rows h.mr
  | succ k ih =>
    intro w last frontier f seen h ho
    obtain ⟨v, e1, hv, mv⟩ := h.mul
    set w1 := w.upd result v none with hw1
    have e1r : w1.heap result = v := World.upd_out ..
    have e1o : ∀ q, q ≠ result → w1.heap q = w.heap q := fun q hq => World.upd_ne _ _ _ hq
    have hA : ∀ q, q < w0.next → w1.heap q = w.heap q := fun q hq => e1o q (Nat.ne_of_lt (Nat.lt_of_lt_of_le hq h.oR))
    have F1 : Fit w0 (uncut w1) a result n :=
      ⟨by show Net (w1.heap a) n; rw [hA a h.oa]; exact h.fit.net, by show IsVec (w1.heap result) n; rw [e1r]; exact hv, rfl,
        h.fit.gas⟩
    have asked : Asked a result w0.next n f seen last w1 :=
      ⟨fun q hq => (hA q hq).trans (ho q hq), by rw [e1r]; exact hv.wf, by rw [e1r]; exact hv.kind, by rw [e1r]; exact hv.rows,
        fun i hi => by rw [e1r, mv i hi, ho a h.oa]⟩
    have hrun : (turnsBy a visited result c (k + 1) frontier >>= fun _ => (pure result : M T Ref)) w =
        (c result >>= fun b => (if b then (pure () : M T Unit) else
          (Ops.elementWiseVectorAdd visited result .nil visited >>= fun _ => M.copy result >>= fun f =>
            M.clear result >>= fun _ => turnsBy a visited result c k f)) >>= fun _ => (pure result : M T Ref)) w1 := by
      rw [turnsBy, bind_apply, bind_ok e1]
      rw [bind_apply, bind_apply]
      cases c result w1 <;> rfl
    rw [hrun, bind_apply]
    cases hcw : c result w1 with
    | panic u => exact .panics asked hcw
    | hang u => exact .hangs asked hcw
    | ok b u =>
      cases b with
      | true => exact .found asked hcw
      | false =>
        have hnx := hc.next _ _ _ _ F1 h.oR h.nr hcw
        have ev : u.heap visited = w.heap visited := by
          rw [hc.own _ _ _ _ visited F1 h.oR h.nr hcw h.ov h.nv h.vr, e1o _ h.vr]
        have Fu := hc.fit _ _ _ _ F1 h.oR h.nr hcw
        have hrest : ∀ w2, (∀ (β : Type) (k : Ref → M T β), (Ops.elementWiseVectorAdd visited result .nil visited >>= fun _ =>
            M.copy result >>= fun f => M.clear result >>= fun _ => k f) u = k u.next w2) →
            ((Ops.elementWiseVectorAdd visited result .nil visited >>= fun _ => M.copy result >>= fun f =>
            M.clear result >>= fun _ => turnsBy a visited result c k f) >>= fun _ => (pure result : M T Ref)) u =
            (turnsBy a visited result c k u.next >>= fun _ => (pure result : M T Ref)) w2 := by
          intro w2 g1
          rw [bind_apply, g1, bind_apply]
        rcases hc.live _ _ _ _ hcw rfl with hcu | hcu
        · refine .next asked hcw hcu ?_
          obtain ⟨w2, g1, g2, g3⟩ := rest_ok (u := u) ⟨Fu.net, Fu.vec, hcu, Fu.gas⟩ (by rw [ev]; exact h.hv)
            (by rw [ev]; exact h.mv) (Nat.lt_of_lt_of_le h.nv hnx) (Nat.lt_of_lt_of_le h.nr hnx) h.ov h.oR h.oa h.vr hg
          have := ih w2 u u.next _ _ g3 g2
          rw [← hrest w2 g1] at this
          exact this
        · refine .cut asked hcw hcu ?_
          obtain ⟨w2, seen', c2, g1, g2, g3, g4, -, g5⟩ := restAny hcu Fu (by rw [ev]; exact h.hv) (seen := seen)
            (by rw [ev]; exact h.mv) (Nat.lt_of_lt_of_le h.nv hnx) (Nat.lt_of_lt_of_le h.nr hnx) h.ov h.oR h.oa h.vr hg
          obtain rfl := g4 rfl
          have := turnsBy_idle hc hn hg k w2 u u.next _ _ g5 g3 g2
          rw [← hrest w2 g1] at this
          exact this

end BFS
end GB
