import Verif.Lemmas.Ordered
import Verif.Lemmas.Float
import Verif.Lemmas.Meth
import Verif.Lemmas.Registry

/-!
# Operators over element types without laws
-/

namespace GB

open M Meth

section
variable {T : Type} [GoNum T] [GoStore T]

theorem Meth.subtract_dense_returns {w : World T} {s m : Ref} (hsn : s < w.next) (hmn : m < w.next)
    (hs : (w.heap s).WF) (hm : (w.heap m).WF) (hks : (w.heap s).kind = .dense ∨ (w.heap s).kind = .dvec)
    (hk : (w.heap m).kind ≠ .svec)
    (hsh : SameShape (w.heap s) (w.heap m)) (hgs : (w.heap s).nvalues ≤ w.gas) :
    Returns w (w.heap m).kind (w.heap s).rows (w.heap s).cols
      (fun i j => (w.heap m).keep ((w.heap s).val i j - (w.heap m).val i j)) (Meth.subtract s m w) := by
  have es := fresh_ne w (w.heap m) hsn
  have em := fresh_ne w (w.heap m) hmn
  have hneS : s ≠ w.next := Nat.ne_of_lt hsn
  have := Ops.subtract_writes (w := fresh w (w.heap m)) (s := s) (m := m) (out := w.next) (mask := .nil)
    (by rw [es]; exact hs) (by rw [fresh_next]; exact hm)
    (by rw [fresh_next]; exact hk) (by rw [es, em]; exact hsh) (by rw [es, fresh_next]; exact hsh)
    trivial trivial (by rw [es]; exact hgs) (fun h => absurd h hneS)
  have hcopy : (fun w : World T => match w.heap s with
      | .svec _ => copy s w
      | _ => copy m w) { w with cancel := none } = .ok w.next (fresh w (w.heap m)) := by
    cases hv : w.heap s with
    | svec v => rw [hv] at hks; simp [Mat.kind] at hks
    | _ => simp only [hv]; exact copy_apply hm
  refine (returns_of_writes (m := w.heap m) (x := do
    let matrix ← fun w => match w.heap s with
      | .svec _ => copy s w
      | _ => copy m w
    Ops.subtract s m .nil matrix
    pure matrix) (bind_ok hcopy) this rfl hsh.1.symm hsh.2.symm).congr ?_
  intro i j hi hj
  have hv : (w.heap s).Visits i j := by unfold Mat.Visits; tauto
  rw [if_pos ⟨by rw [es]; exact hv, rfl⟩, es, fresh_next]

end

end GB
