import Verif.Lemmas.Mutex2
import Verif.Lemmas.CSC

/-!
# The accesses of a CSC matrix are those of the mirrored CSR matrix
-/

namespace GB
namespace Mutex

set_option linter.unusedSectionVars false

variable {T : Type} [GoNum T]

/-- CSR and CSC exchanged. -/
def swap : Mat T → Mat T
  | .csr s => .csc (CSC.unmir s)
  | .csc s => .csr (CSC.mir s)
  | m => m

@[simp] theorem swap_swap (m : Mat T) : swap (swap m) = m := by cases m <;> rfl
@[simp] theorem swap_csr (s : CSR T) : swap (.csr s) = .csc (CSC.unmir s) := rfl
@[simp] theorem swap_csc (s : CSC T) : swap (.csc s) = .csr (CSC.mir s) := rfl

/-- The program on the exchanged matrix. -/
def Prog.conj {R : Type} : Prog (Mat T) R → Prog (Mat T) R
  | .done r => .done r
  | .act f k => .act (fun s => swap (f (swap s))) (fun s => (k (swap s)).conj)

theorem conj_run {R : Type} (p : Prog (Mat T) R) (s : Mat T) :
    p.conj.run s = ((p.run (swap s)).1, swap (p.run (swap s)).2) := by
  induction p generalizing s with
  | done r => simp [Prog.conj, Prog.run]
  | act f k ih => simp only [Prog.conj, Prog.run, ih, swap_swap]

theorem conj_quiet {R : Type} {p : Prog (Mat T) R} {s : Mat T} (h : p.Quiet (swap s)) : p.conj.Quiet s := by
  induction p generalizing s with
  | done r => trivial
  | act f k ih =>
    obtain ⟨h1, h2⟩ := h
    exact ⟨by dsimp only; rw [h1, swap_swap], ih _ h2⟩

theorem rdCSC_conj {α : Type} (get : CSR T → Out α) (k : α → Prog (Mat T) (Out (Val T))) :
    rdCSC (fun s => get (CSC.mir s)) (fun a => (k a).conj) = (rdCSR get k).conj := by
  refine congrArg₂ Prog.act ?_ ?_
  · funext s; simp
  · funext s
    cases s with
    | csc s => simp only [swap_csc]; cases get (CSC.mir s) <;> rfl
    | csr s => rfl
    | _ => rfl

theorem wrCSC_conj (put : CSR T → Out (CSR T)) (put' : CSC T → Out (CSC T)) (k : Prog (Mat T) (Out (Val T)))
    (h : ∀ s, put' s = CSC.unmir <$> put (CSC.mir s)) : wrCSC put' k.conj = (wrCSR put k).conj := by
  refine congrArg₂ Prog.act ?_ ?_
  · funext s
    cases s with
    | csc s => simp only [swap_csc, h]; cases put (CSC.mir s) <;> rfl
    | csr s => rfl
    | _ => rfl
  · funext s
    cases s with
    | csc s => simp only [swap_csc, h]; cases put (CSC.mir s) <;> rfl
    | csr s => rfl
    | _ => rfl

theorem bumpProg_conj (f : Nat → Nat) (k : Prog (Mat T) (Out (Val T))) :
    ∀ n i, bumpProgC f k.conj n i = (bumpProg f k n i).conj
  | 0, _ => rfl
  | n + 1, i => by
    unfold bumpProgC bumpProg
    rw [bumpProg_conj f k n (i + 1)]
    refine wrCSC_conj _ _ _ fun s => ?_
    simp only [CSC.mir]
    cases idx s.colStart i with
    | ok x => simp only [Out.ok_bind]; cases setIdx s.colStart i (f x) <;> rfl
    | _ => rfl

theorem insertProg_conj (sc pointer r c : Nat) (value : T) (k : Prog (Mat T) (Out (Val T))) :
    insertProgC sc pointer r c value k.conj = (insertProg sc pointer c r value k).conj := by
  unfold insertProgC insertProg
  split
  · rfl
  · rw [bumpProg_conj]
    rw [wrCSC_conj (fun s => do let l ← splice s.values pointer value; .ok { s with values := l })]
    · refine wrCSC_conj _ _ _ fun s => ?_
      simp only [CSC.mir]
      cases splice s.rows pointer r <;> rfl
    · intro s
      simp only [CSC.mir]
      cases splice s.values pointer value <;> rfl

theorem removeProg_conj (sc pointer c : Nat) (k : Prog (Mat T) (Out (Val T))) :
    removeProgC sc pointer c k.conj = (removeProg sc pointer c k).conj := by
  unfold removeProgC removeProg
  rw [bumpProg_conj]
  rw [wrCSC_conj (fun s => do let l ← unsplice s.values pointer; .ok { s with values := l })]
  · refine wrCSC_conj _ _ _ fun s => ?_
    simp only [CSC.mir]
    cases unsplice s.rows pointer <;> rfl
  · intro s
    simp only [CSC.mir]
    cases unsplice s.values pointer <;> rfl

theorem searchProg_conj (r : Nat) (k : Nat → Nat → Prog (Mat T) (Out (Val T))) :
    ∀ fuel s e, searchProgC r (fun a b => (k a b).conj) fuel s e = (searchProg r k fuel s e).conj
  | 0, s, e => by
    unfold searchProgC searchProg
    split <;> rfl
  | fuel + 1, s, e => by
    unfold searchProgC searchProg
    split
    · rw [← rdCSC_conj]
      congr 1
      funext x
      rw [searchProg_conj r k fuel, searchProg_conj r k fuel]
      split
      · rfl
      · split <;> rfl
    · rfl

theorem indexProg_conj (r c : Nat) (k : Nat → Nat → Prog (Mat T) (Out (Val T))) :
    indexProgC r c (fun a b => (k a b).conj) = (indexProg c r k).conj := by
  unfold indexProgC indexProg
  rw [← rdCSC_conj]
  congr 1
  funext a
  rw [← rdCSC_conj]
  congr 1
  funext b
  rw [searchProg_conj]
  split
  · rfl
  · rw [← rdCSC_conj]
    congr 1
    funext l
    split <;> rfl

theorem storeProg_conj {β : Type} (sc r c : Nat) (f : T → β × T) (val : β → Val T) (a b : Nat) :
    storeProgC sc r c f val a b = (storeProg sc c r f val a b).conj := by
  unfold storeProgC storeProg
  dsimp only
  have miss : insertProgC sc a r c (f 0).2 (.done (.ok (val (f 0).1))) =
      (insertProg sc a c r (f 0).2 (.done (.ok (val (f 0).1)))).conj := insertProg_conj _ _ _ _ _ (.done _)
  rw [miss]
  split
  · rw [← rdCSC_conj]
    congr 1
    funext x
    split
    · rw [← rdCSC_conj]
      congr 1
      funext old
      split
      · exact removeProg_conj _ _ _ (.done _)
      · refine wrCSC_conj _ _ (.done _) fun s => ?_
        simp only [CSC.mir]
        cases setIdx s.values a (f old).2 <;> rfl
    · rfl
  · rfl

theorem updateProg_conj {β : Type} (r c : Int) (f : T → β × T) (val : β → Val T) :
    updateProgC r c f val = (updateProg c r f val).conj := by
  unfold updateProgC updateProg
  rw [← rdCSC_conj]
  unfold rdCSC
  congr 1
  funext s
  cases s with
  | csc s =>
    dsimp only [CSC.mir]
    have e : storeProgC s.c r.toNat c.toNat f val = fun a b => (storeProg s.c c.toNat r.toNat f val a b).conj := by
      funext a b; exact storeProg_conj _ _ _ _ _ _ _
    rw [e, indexProg_conj]
    by_cases h1 : inRange r s.r <;> by_cases h2 : inRange c s.c <;> simp only [h1, h2, if_true] <;> rfl
  | _ => rfl

theorem clearProg_conj : (clearProgC : Prog (Mat T) (Out (Val T))) = clearProg.conj := by
  unfold clearProgC clearProg
  rw [← wrCSC_conj _ _ _ fun s => rfl, ← wrCSC_conj _ _ _ fun s => rfl, ← wrCSC_conj _ _ _ fun s => rfl]
  rfl

end Mutex
end GB
