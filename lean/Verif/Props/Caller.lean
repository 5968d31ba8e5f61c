import Verif.Lemmas.Caller

/-!
# `Apply` with any function of the caller: C105
-/

namespace GB

set_option linter.unusedSectionVars false

open M

section
variable {T : Type} [GoNum T] [GoStore T] {w : World T}

/-- C105, a function that answers alike each time and never panics: the `Apply` of the rest of the model. -/
theorem C105_plain (f : T → T) (s : Ref) (mask : Mask) (out : Ref) :
    Ops.applyBy s mask (fun _ v => some (f v)) out w = Ops.apply s mask f out w := by
  unfold Ops.applyBy Ops.apply
  rw [bind_ok (Mask.orEmpty_apply mask out w), bind_ok (Mask.orEmpty_apply mask out w)]
  simp only [bind_apply]
  cases (mask.resolve w out).check out w with
  | ok _ w1 =>
    simp only
    split
    · exact Ops.mapBy_plain s _ f w1.gas _ [] w1
    · exact Ops.eachBy_plain s _ f out w1.gas _ [] w1
  | panic _ => rfl
  | hang _ => rfl

/-- C105, a mask of the wrong shape: the call panics, nothing has changed, whatever the function would have done. -/
theorem C105_rejected (u : List T → T → Option T) (s out : Ref) {mask : Mask} (hF : ¬ mask.Fits w out) :
    Ops.applyBy s mask u out w = .panic w := by
  unfold Ops.applyBy
  rw [Mask.pre_panic hF]

/-- **C105**, into another object: the function is asked about the entries where the mask is not set, in the order of
enumeration, as far as the context allows; each answer is `Set` at the transposed place before the next question. If the
function panics, so does the call, with the answers before that in place and nothing else changed. -/
theorem C105_apart (u : List T → T → Option T) {s out : Ref} {mask : Mask} (h : (OpCall.apply s id).Ready w mask out) :
    ∃ m' c, (w.heap out).run ((answers u [] ((seen w.cancel (w.heap s).entries).filter fun e => !mask.bit w e.1 e.2.1)).1.map
        fun e => .set e.2.1 e.1 e.2.2) = .ok m' ∧ m'.Inv ∧ Mat.Same m' (w.heap out) ∧
      Ops.applyBy s mask u out w =
        finish (answers u [] ((seen w.cancel (w.heap s).entries).filter fun e => !mask.bit w e.1 e.2.1)).2 (w.upd out m' c) := by
  obtain ⟨hops, ho, hsh, -, hap, hF, hS, hmo, hg⟩ := h
  simp only [OpCall.operands, List.mem_cons, List.not_mem_nil, or_false, forall_eq] at hops hap hg
  have hsh : OpCall.Shapes.Crossed w mask s out := hsh.resolve_left hap
  obtain ⟨m', c', a1, a2, a3, a4⟩ := Ops.eachBy_run (u := u) hap hS hmo (w.heap s).entries w.gas (w.heap s).iter [] (w.heap out)
    w.cancel hops.delivers (by rw [hops.entries_length]; exact hg) ho (Mat.Same.refl _) (fun e he => by
      obtain ⟨hi, hj⟩ := hops.entries_in he
      refine ⟨?_, by rw [hsh.1]; exact hj, by rw [hsh.2.1]; exact hi⟩
      rcases hsh.2.2 with h | h
      · exact h.covers _ _
      · exact hF.in (by rw [hsh.1, ← h]; exact hi) (by rw [hsh.2.1, h]; exact hj))
  refine ⟨m', c', a1, a2, a3, ?_⟩
  rw [w.upd_self out] at a4
  rw [← a4]
  unfold Ops.applyBy
  rw [Mask.pre_ok hF, if_neg hap]
  rfl

/-- **C105**, in place: the function is asked about the entries where the mask *is* set (the object may be its own mask),
and each answer replaces the entry before the next question. The answers must be such as the format can hold (not 0 for
the compressed ones). -/
theorem C105_inplace (u : List T → T → Option T) {p : Ref} {mask : Mask} (hp : (w.heap p).WF) (hk : (w.heap p).kind ≠ .svec)
    (hF : mask.Fits w p) (hS : mask.Sound w) (hg : (w.heap p).nvalues ≤ w.gas)
    (hst : (w.heap p).kind.sparse = true →
      ∀ a ∈ (answers u [] ((seen w.cancel (w.heap p).entries).filter fun e => mask.bit w e.1 e.2.1)).1, isZero a.2.2 = false) :
    ∃ m' c, m'.WF ∧ Mat.Same m' (w.heap p) ∧
      (∀ i j, i < (w.heap p).rows → j < (w.heap p).cols → m'.val i j =
        patch (w.heap p).val (answers u [] ((seen w.cancel (w.heap p).entries).filter fun e => mask.bit w e.1 e.2.1)).1 i j) ∧
      Ops.applyBy p mask u p w =
        finish (answers u [] ((seen w.cancel (w.heap p).entries).filter fun e => mask.bit w e.1 e.2.1)).2 (w.upd p m' c) := by
  obtain ⟨es, e1, e2, -, e4⟩ := Mat.ordered_entries hp
  have hes : (w.heap p).entries = es := by
    rw [e4]
    cases hm : w.heap p with
    | svec s => rw [hm] at hk; exact absurd rfl hk
    | _ => rfl
  rw [hes] at hst ⊢
  obtain ⟨m', c', a1, a2, a3, a4⟩ := Ops.mapBy_run (u := u) hS hF es w.gas (w.heap p).iter [] (w.heap p) w.cancel e1
    (by rw [e2]; exact hg) (Mat.Same.refl _) (fun e he => by
      rw [e4] at he
      obtain ⟨q, hq, rfl⟩ := List.mem_map.1 he
      refine ⟨rfl, fun hs => ?_⟩
      have := (List.mem_filter.1 hq).2
      simpa [hs] using this) (fun a ha => by
      unfold Mat.Storable
      cases hkk : (w.heap p).kind <;> simp only [] <;> first | trivial | exact hst (by rw [hkk]; rfl) a ha)
  refine ⟨m', c', a1, a2, a3, ?_⟩
  rw [w.upd_self p] at a4
  rw [← a4]
  unfold Ops.applyBy
  rw [Mask.pre_ok hF, if_pos rfl]
  rfl

/-- **C105**, in place on a sparse vector in any reachable state, with a mask that is not the vector itself: the stored
positions stay, and the stored values are replaced one after the other. -/
theorem C105_inplace_sparse_vector (u : List T → T → Option T) {p : Ref} {v : SVec T} {mask : Mask} (hv : w.heap p = .svec v)
    (hp : Reach (w.heap p)) (hF : mask.Fits w p) (hS : mask.Sound w) (hmo : mask ≠ .ref p) (hg : v.values.length ≤ w.gas)
    (hst : ∀ a ∈ (answers u [] ((seen w.cancel (w.heap p).entries).filter fun e => mask.bit w e.1 e.2.1)).1, isZero a.2.2 = false) :
    ∃ c, Ops.applyBy p mask u p w =
      finish (answers u [] ((seen w.cancel (w.heap p).entries).filter fun e => mask.bit w e.1 e.2.1)).2
        (w.upd p (.svec { v with values := (replies (fun e => mask.bit w e.1 e.2.1) u [] (seen w.cancel (w.heap p).entries) ++
          v.values.drop (seen w.cancel (w.heap p).entries).length) }) c) := by
  have hw : v.Weak := by rw [hv] at hp; exact hp.weak
  have hes : (w.heap p).entries = v.pairs.map fun e => (e.1, 0, e.2) := by rw [hv]; rfl
  have hvs : (w.heap p).entries.map (fun e => e.2.2) = v.values := by
    rw [hes, List.map_map]
    show v.pairs.map Prod.snd = _
    exact List.map_snd_zip (by rw [hw.len])
  have hl : (w.heap p).entries.length = v.indices.length := by rw [hes, List.length_map]; exact hw.length
  generalize (w.heap p).entries = es at *
  obtain ⟨c, e⟩ := Ops.mapBy_svec (u := u) hv hS hF hmo hw.len es w.gas v.iter [] [] w.cancel (by simpa using hl) rfl rfl
    (by rw [hl, hw.len]; exact hg)
    (fun k hk => by
      subst hes
      simp [SVec.pairs])
    (fun e he => by
      rw [hes] at he
      obtain ⟨x, hx, rfl⟩ := List.mem_map.1 he
      exact hw.pairs_bound hx) hst
  refine ⟨c, ?_⟩
  rw [hvs] at e
  simp only [List.nil_append] at e
  rw [show ({ v with values := v.values } : SVec T) = v from rfl, ← hv, w.upd_self p, List.map_drop, hvs] at e
  rw [← e]
  unfold Ops.applyBy
  rw [Mask.pre_ok hF, if_pos rfl]
  show Ops.mapBy p _ u w.gas (w.heap p).iter [] w = _
  rw [hv]; rfl

end

/-! A function that answers with the number of its calls so far, and panics when it is called the third time. -/

/-- Counts its calls; the third is a panic. -/
def countTwo (past : List ℤ) (_ : ℤ) : Option ℤ := if past.length < 2 then some (past.length + 1) else none

/-- A CSR matrix with rows `7 0`, `8 9`, and a dense matrix of zeros. -/
def callerWorld : World ℤ := World.of 9 [.csr { r := 2, c := 2, rowStart := [0, 1, 3], cols := [0, 0, 1], values := [7, 8, 9] },
  .dense { r := 2, c := 2, data := [[0, 0], [0, 0]] }]

example : (Ops.applyBy 0 .nil countTwo 1 callerWorld).isPanic = true ∧
    (Ops.applyBy 0 .nil countTwo 1 callerWorld).world.heap 1 = .dense { r := 2, c := 2, data := [[1, 2], [0, 0]] } := by
  constructor <;> kernel_rfl

example : (answers countTwo [] (callerWorld.heap 0).entries) = ([(0, 0, 1), (1, 0, 2)], false) := by kernel_rfl

/-- In place, the matrix being its own mask. -/
example : (Ops.applyBy 0 (.ref 0) countTwo 0 callerWorld).isPanic = true ∧
    (Ops.applyBy 0 (.ref 0) countTwo 0 callerWorld).world.heap 0 = .csr { r := 2, c := 2, rowStart := [0, 1, 3], cols := [0, 0, 1], values := [1, 2, 9] } := by
  constructor <;> kernel_rfl

theorem callerWorld_wf : (callerWorld.heap 0).WF := by
  refine ⟨[[(0, 7)], [(0, 8), (1, 9)]], rfl, by decide, by decide, by decide, ?_, ?_, ?_⟩
  · intro row hrow
    simp only [List.mem_cons, List.not_mem_nil, or_false] at hrow
    rcases hrow with rfl | rfl <;> unfold RowSorted <;> simp
  · intro row hrow e he
    simp only [List.mem_cons, List.not_mem_nil, or_false] at hrow
    rcases hrow with rfl | rfl <;> simp at he
    · subst he; decide
    · rcases he with rfl | rfl <;> decide
  · intro row hrow e he
    simp only [List.mem_cons, List.not_mem_nil, or_false] at hrow
    rcases hrow with rfl | rfl <;> simp at he
    · subst he; decide
    · rcases he with rfl | rfl <;> decide

/-- The hypotheses of `C105_apart`. -/
theorem callerWorld_ready : (OpCall.apply 0 id : OpCall ℤ).Ready callerWorld .nil 1 where
  operands := by
    intro p hp
    simp only [OpCall.operands, List.mem_cons, List.not_mem_nil, or_false] at hp
    subst hp
    exact callerWorld_wf
  output := ⟨rfl, by simp⟩
  shapes := .inr ⟨rfl, rfl, .inr rfl⟩
  writes := by intro s h; cases h
  apart := by
    intro p hp
    simp only [OpCall.operands, List.mem_cons, List.not_mem_nil, or_false] at hp
    subst hp; decide
  fits := trivial
  sound := trivial
  masked := by simp
  gas := by
    intro p hp
    simp only [OpCall.operands, List.mem_cons, List.not_mem_nil, or_false] at hp
    subst hp; decide

/-- The hypotheses of `C105_inplace`: the answers that are given are not 0. -/
example : ∃ m' c, m'.WF ∧ Mat.Same m' (callerWorld.heap 0) ∧
    (∀ i j, i < 2 → j < 2 → m'.val i j = patch (callerWorld.heap 0).val [(0, 0, 1), (1, 0, 2)] i j) ∧
    Ops.applyBy 0 (.ref 0) countTwo 0 callerWorld = .panic (callerWorld.upd 0 m' c) :=
  C105_inplace (mask := .ref 0) countTwo callerWorld_wf (by simp [callerWorld, World.of, Mat.kind]) ⟨rfl, rfl⟩ callerWorld_wf (by decide)
    (fun _ a ha => by
      have : a ∈ [((0 : Nat), (0 : Nat), (1 : ℤ)), (1, 0, 2)] := ha
      simp only [List.mem_cons, List.not_mem_nil, or_false] at this
      rcases this with rfl | rfl <;> decide)

/-- A sparse vector in place: the third question is a panic. -/
def callerVec : World ℤ := World.of 9 [.svec { l := 5, values := [7, 8, 9], indices := [0, 1, 2] }]

example : (Ops.applyBy 0 (.given 5 1 fun _ _ => some true) countTwo 0 callerVec).isPanic = true ∧
    (Ops.applyBy 0 (.given 5 1 fun _ _ => some true) countTwo 0 callerVec).world.heap 0 =
      .svec { l := 5, values := [1, 2, 9], indices := [0, 1, 2] } := by
  refine ⟨by kernel_rfl, by kernel_rfl⟩

theorem callerVec_reach : Reach (callerVec.heap 0) :=
  Reach.arrSVec (data := [7, 8, 9, 0, 0]) rfl

/-- The hypotheses of `C105_inplace_sparse_vector`. -/
example : ∃ c, Ops.applyBy 0 (.given 5 1 fun _ _ => some true) countTwo 0 callerVec =
    .panic (callerVec.upd 0 (.svec { l := 5, values := [1, 2, 9], indices := [0, 1, 2] }) c) :=
  C105_inplace_sparse_vector countTwo (v := { l := 5, values := [7, 8, 9], indices := [0, 1, 2] }) rfl callerVec_reach ⟨rfl, rfl⟩
    (fun _ _ _ _ => ⟨true, rfl⟩) (by simp) (by decide) (fun a ha => by
      have : a ∈ [((0 : Nat), (0 : Nat), (1 : ℤ)), (1, 0, 2)] := ha
      simp only [List.mem_cons, List.not_mem_nil, or_false] at this
      rcases this with rfl | rfl <;> decide)

end GB
