import Verif.Props.Storage
import Verif.Props.Float

/-!
# C13 for every element type

`C13_formats_agree` asks that `==` be equality, which floats do not meet: the compressed formats
drop a written negative zero and read back zero, dense storage keeps it. Without `Update` that is
the only difference. With `Update` it can grow, since the function sees the sign.
-/

namespace GB

variable {T : Type} [GoNum T] [GoStore T]

/-- Is the call an `Update`? -/
def Op.isUpdate : Op T → Bool
  | .update _ _ _ => true
  | _ => false

/-- Without `Update`, what a table that drops the sign of zero holds is what a table that keeps it
holds, with the sign dropped. -/
theorem specRun_norm (ops : List (Op T)) : ∀ f g : Nat → Nat → T, (∀ i j, f i j = norm (g i j)) →
    (∀ o ∈ ops, o.isUpdate = false) → ∀ i j, specRun norm f ops i j = norm (specRun id g ops i j) := by
  induction ops with
  | nil => intro f g h _ i j; exact h i j
  | cons o ops ih =>
    intro f g h ho i j
    have h1 := ho o (by simp)
    have e1 : specRun norm f (o :: ops) = specRun norm (o.spec norm f) ops := rfl
    have e2 : specRun id g (o :: ops) = specRun id (o.spec id g) ops := rfl
    rw [e1, e2]
    refine ih _ _ (fun a b => ?_) (fun o' ho' => ho o' (by simp [ho'])) i j
    cases o with
    | set x y v => simp only [Op.spec, put2]; split <;> simp [h]
    | update x y u => simp [Op.isUpdate] at h1
    | clear => simp [Op.spec, norm, isZero_zero]
    | read x y => exact h a b
    | element x y => exact h a b

/-- C13 for every element type (floats among them) and histories without `Update`: the compressed
formats read what dense storage reads, a negative zero replaced by zero; so do their row arrays. -/
theorem C13_without_update (r c : Nat) (ops : List (Op T)) (hops : ∀ o ∈ ops, o.InRange r c)
    (hu : ∀ o ∈ ops, o.isUpdate = false) :
    ∃ a b d, (Mat.csr (CSR.new r c)).run ops = .ok a ∧ (Mat.csc (CSC.new r c)).run ops = .ok b ∧
      (Mat.dense (Dense.new r c)).run ops = .ok d ∧
      (∀ i j : Nat, i < r → j < c →
        ∃ v, d.at' i j = .ok (v, d) ∧ a.at' i j = .ok (norm v, a) ∧ b.at' i j = .ok (norm v, b)) ∧
      (∀ i : Nat, i < r → ∃ row, d.rowsAtToArray i = .ok row ∧ a.rowsAtToArray i = .ok (row.map norm) ∧
        b.rowsAtToArray i = .ok (row.map norm)) := by
  obtain ⟨a, a1, a2, a3, a4⟩ := Mat.run_ok ops (m := .csr (CSR.new r c)) (f := fun _ _ => 0)
    (Mat.csr_new_wf r c) (by simp [Mat.kind]) hops (fun i j hi hj => Mat.csr_new_val r c hi hj)
  obtain ⟨b, b1, b2, b3, b4⟩ := Mat.run_ok ops (m := .csc (CSC.new r c)) (f := fun _ _ => 0)
    (Mat.csc_new_wf r c) (by simp [Mat.kind]) hops (fun i j hi hj => Mat.csc_new_val r c hi hj)
  obtain ⟨d, d1, d2, d3, d4⟩ := Mat.run_ok ops (m := .dense (Dense.new r c)) (f := fun _ _ => 0)
    (Dense.wf_new r c) (by simp [Mat.kind]) hops (fun i j hi hj => Mat.dense_new_val r c hi hj)
  have ka : (Mat.csr (CSR.new r c : CSR T)).keep = norm := rfl
  have kb : (Mat.csc (CSC.new r c : CSC T)).keep = norm := rfl
  have kd : (Mat.dense (Dense.new r c : Dense T)).keep = id := rfl
  have key := specRun_norm ops (fun _ _ => 0) (fun _ _ => 0) (fun i j => by simp [norm, isZero_zero]) hu
  rw [ka] at a4; rw [kb] at b4; rw [kd] at d4
  refine ⟨a, b, d, a1, b1, d1, fun i j hi hj => ⟨specRun id (fun _ _ => 0) ops i j, ?_, ?_, ?_⟩,
    fun i hi => ⟨(List.range c).map (fun j => specRun id (fun _ _ => 0) ops i j), ?_, ?_, ?_⟩⟩
  · rw [Mat.at_ok d2 (by rw [d3.2.1]; exact hi) (by rw [d3.2.2]; exact hj), d4 i j hi hj]
  · rw [Mat.at_ok a2 (by rw [a3.2.1]; exact hi) (by rw [a3.2.2]; exact hj), a4 i j hi hj, key]
  · rw [Mat.at_ok b2 (by rw [b3.2.1]; exact hi) (by rw [b3.2.2]; exact hj), b4 i j hi hj, key]
  · rw [rowsAtToArray_of_wf d2 (by rw [d3.1]; simp [Mat.kind]) (by rw [d3.2.1]; exact hi), d3.2.2]
    congr 1
    exact List.map_congr_left (fun j hj => d4 i j hi (by simpa [Mat.cols, Dense.new] using hj))
  · rw [rowsAtToArray_of_wf a2 (by rw [a3.1]; simp [Mat.kind]) (by rw [a3.2.1]; exact hi), a3.2.2,
      List.map_map]
    congr 1
    exact List.map_congr_left (fun j hj => by
      rw [a4 i j hi (by simpa [Mat.cols, CSR.new] using hj), key]; rfl)
  · rw [rowsAtToArray_of_wf b2 (by rw [b3.1]; simp [Mat.kind]) (by rw [b3.2.1]; exact hi), b3.2.2,
      List.map_map]
    congr 1
    exact List.map_congr_left (fun j hj => by
      rw [b4 i j hi (by simpa [Mat.cols, CSC.new] using hj), key]; rfl)

/-- Two cells of a float matrix, one of them a negative zero. -/
example : (∀ o ∈ [Op.set 0 0 (Fl.negZero : F64), .set 0 1 1, .read 0 0], o.InRange 1 2) ∧
    (∀ o ∈ [Op.set 0 0 (Fl.negZero : F64), .set 0 1 1, .read 0 0], o.isUpdate = false) ∧
    norm (Fl.negZero : F64) = 0 ∧ (Fl.negZero : F64) ≠ 0 := by
  refine ⟨?_, ?_, by decide +kernel, by decide +kernel⟩
  · intro o ho; simp only [List.mem_cons, List.not_mem_nil, or_false] at ho
    rcases ho with rfl | rfl | rfl <;> exact ⟨by omega, by omega⟩
  · intro o ho; simp only [List.mem_cons, List.not_mem_nil, or_false] at ho
    rcases ho with rfl | rfl | rfl <;> rfl

/-- C13 for floats and all histories: false. After writing a negative zero, an `Update` whose
function looks at the sign stores 1 in dense storage and 2 in the compressed formats. -/
theorem C13_refuted_float : ∃ (ops : List (Op F64)) (a b d : Mat F64), (∀ o ∈ ops, o.InRange 1 1) ∧
    (Mat.csr (CSR.new 1 1)).run ops = .ok a ∧ (Mat.csc (CSC.new 1 1)).run ops = .ok b ∧
    (Mat.dense (Dense.new 1 1)).run ops = .ok d ∧
    d.at' 0 0 = .ok (1, d) ∧ a.at' 0 0 = .ok (1 + 1, a) ∧ b.at' 0 0 = .ok (1 + 1, b) ∧ (1 : F64) ≠ 1 + 1 := by
  have hops : ∀ o ∈ [Op.set 0 0 (Fl.negZero : F64), .update 0 0 fun v => if v = Fl.negZero then 1 else 1 + 1],
      o.InRange 1 1 := by
    intro o ho; simp only [List.mem_cons, List.not_mem_nil, or_false] at ho
    rcases ho with rfl | rfl <;> exact ⟨by omega, by omega⟩
  obtain ⟨a, a1, -, -, a4⟩ := C01_csr_history 1 1 _ hops
  obtain ⟨b, b1, -, -, b4⟩ := C02_csc_history 1 1 _ hops
  obtain ⟨d, d1, -, -, d4⟩ := C03_dense_history 1 1 _ hops
  have e1 : specRun norm (fun _ _ => (0 : F64)) [Op.set 0 0 (Fl.negZero : F64),
      .update 0 0 fun v => if v = Fl.negZero then 1 else 1 + 1] 0 0 = 1 + 1 := by decide +kernel
  have e2 : specRun id (fun _ _ => (0 : F64)) [Op.set 0 0 (Fl.negZero : F64),
      .update 0 0 fun v => if v = Fl.negZero then 1 else 1 + 1] 0 0 = 1 := by decide +kernel
  have ha := a4 0 0 (by omega) (by omega)
  have hb := b4 0 0 (by omega) (by omega)
  have hd := d4 0 0 (by omega) (by omega)
  rw [e1] at ha hb; rw [e2] at hd
  exact ⟨_, a, b, d, hops, a1, b1, d1, hd, ha, hb, by decide +kernel⟩

end GB
