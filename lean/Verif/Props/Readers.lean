import Verif.Lemmas.Readers
import Verif.Props.Race

/-!
# C89: a matrix that several goroutines read, without a lock

The system of C35 with no call taking the lock (`noLock`).
-/

namespace GB
namespace Mutex

set_option linter.unusedSectionVars false

/-- The methods of a matrix that is not wrapped. -/
def noLock {μ : Type} (_ : μ) : Mode := .free

variable {T : Type} [GoNum T] [GoStore T] {n gas : Nat} {s0 : Mat T} {calls : Fin n → List (Method T)}
  {c : Conf n (Method T) (Mat T) (Out (Val T))}

/-- **C89**: goroutines that make no call of `Set`, `Update`, `Clear` or the `Map` of an iterator get what they would get alone,
in every interleaving of their accesses, and the matrix stays as it is. -/
theorem C89_results (hs : Reach s0)
    (hA : ∀ i, ∀ m ∈ calls i, m.Sound ∧ (∀ r c v, m ≠ .set r c v) ∧ ∀ r c f, m ≠ .update r c f)
    (h : Steps noLock (Method.fine gas) (Conf.init s0 calls) c) :
    c.mat = s0 ∧ ∀ i, (∃ rest, (c.thr i).res.map Prod.fst ++ rest = calls i) ∧
      ∀ x ∈ (c.thr i).res, x.2 = (x.1.alone gas s0).1 := by
  have hw : ∀ i, ∀ m ∈ calls i, m.mode ≠ .write := by
    intro i m hm h
    obtain ⟨-, h1, h2⟩ := hA i m hm
    cases m <;> simp only [Method.mode, reduceCtorEq] at h
    · exact h2 _ _ _ rfl
    · exact h1 _ _ _ rfl
  have := Still.steps (P := fun (m : Method T) p => Reading gas s0 False m p) (Q := fun m r => r = (m.alone gas s0).1)
    (fun i m hm => reading_fine hs False.elim (hA i m hm).1 (hw i m hm)) (fun m f k h => h.act) (fun m r h => h.run) h
  exact ⟨this.mat, fun i => ⟨⟨_, by rw [← List.append_assoc]; exact this.prog i⟩, this.got i⟩⟩

/-- **C89**, what races there are: only `At` and `Element` of a non-zero cell of a CSR or CSC matrix write, and what they write is
what is there. -/
theorem C89_races_partial (hs : Reach s0) (hk : s0.kind ≠ .svec) (hA : ∀ i, ∀ m ∈ calls i, m.Direct ∧ m.mode ≠ .write)
    (h : Steps noLock (Method.fine gas) (Conf.init s0 calls) c) {i j : Fin n} {m m' : Method T}
    (hr : c.Races i j m m') :
    (s0.kind = .csr ∨ s0.kind = .csc) ∧ (∀ f k, c.Next i m f k → f s0 = s0) ∧
    ∃ r q : Int, m.Looks r q ∧ s0.Valid r q ∧ isZero (s0.val r.toNat q.toNat) = false ∧
      ∀ r' q', m'.Looks r' q' → r' = r ∧ q' = q := by
  have hS := Still.steps (P := fun (m : Method T) p => Reading gas s0 True m p) (Q := fun _ _ => True)
    (fun i m hm => reading_fine hs (fun _ => ⟨(hA i m hm).1, hk⟩) (hA i m hm).1.sound (hA i m hm).2)
    (fun m f k h => h.act) (fun m r h => trivial) h
  obtain ⟨hne, f, k, g, h', l, hi, hj, h1, h2⟩ := hr
  rw [hS.mat] at h1 h2
  have Ri := hS.left i m _ hi
  have Rj := hS.left j m' _ hj
  have Fi := Ri.fits trivial (f, k) (by simp [Prog.trace])
  have Fj := Rj.fits trivial (g, h') (by simp [Prog.trace])
  have hcomp : s0.kind = .csr ∨ s0.kind = .csc := by
    by_contra hn
    exact Fi.2 (.inl hn) l h1
  have hlook : ∃ r q, m.Looks r q := by
    by_contra hn
    exact Fi.2 (.inr fun r q hl => hn ⟨r, q, hl⟩) l h1
  obtain ⟨r, q, hl⟩ := hlook
  obtain ⟨p, rfl, hp⟩ := (Fi.1 hcomp r q hl).1 l h1
  refine ⟨hcomp, fun f' k' hn => ?_, r, q, hl, hp.spec.2.1, hp.spec.2.2, fun r' q' hl' => ?_⟩
  · exact (hS.left i m _ hn).act.1
  · have hp' : Holds s0 r' q' p := by
      rcases h2 with h2 | h2
      · obtain ⟨p', e, hp'⟩ := (Fj.1 hcomp r' q' hl').1 _ h2
        cases e; exact hp'
      · exact (Fj.1 hcomp r' q' hl').2 p h2
    exact hp'.unique hs hp

/-- **C89** for dense matrices and vectors: no race. -/
theorem C89_dense (hs : Reach s0) (hk : s0.kind = .dense ∨ s0.kind = .dvec) (hA : ∀ i, ∀ m ∈ calls i, m.Direct ∧ m.mode ≠ .write)
    (h : Steps noLock (Method.fine gas) (Conf.init s0 calls) c) (i j : Fin n) (m m' : Method T) :
    ¬ c.Races i j m m' := by
  intro hr
  have hk' : s0.kind ≠ .svec := by rcases hk with hk | hk <;> rw [hk] <;> simp
  have := (C89_races_partial hs hk' hA h hr).1
  rcases hk with hk | hk <;> rw [hk] at this <;> simp at this

/-- **C89** without `At` and `Element`: no race. -/
theorem C89_no_look (hs : Reach s0) (hk : s0.kind ≠ .svec) (hA : ∀ i, ∀ m ∈ calls i, m.Direct ∧ m.mode ≠ .write)
    (hL : ∀ i, ∀ m ∈ calls i, ∀ r q, ¬ m.Looks r q)
    (h : Steps noLock (Method.fine gas) (Conf.init s0 calls) c) (i j : Fin n) (m m' : Method T) :
    ¬ c.Races i j m m' := by
  intro hr
  obtain ⟨-, -, r, q, hl, -⟩ := C89_races_partial hs hk hA h hr
  obtain ⟨-, f, k, g, h', l, hi, -⟩ := hr
  exact hL i m ((Owned.steps h i).2.2 m _ hi) r q hl

/-- **C89**, exactly, for goroutines that call `At` and `Element`: some execution has a race just if two of them look at the same
non-zero cell of a CSR or CSC matrix. -/
theorem C89_exact (hs : Reach s0) (hk : s0.kind ≠ .svec) (hA : ∀ i, ∀ m ∈ calls i, ∃ r q, m.Looks r q) :
    ((∃ c i j m m', Steps noLock (Method.fine gas) (Conf.init s0 calls) c ∧ c.Races i j m m') ↔
    (s0.kind = .csr ∨ s0.kind = .csc) ∧ ∃ i j m m', ∃ r q : Int, i ≠ j ∧ m ∈ calls i ∧ m' ∈ calls j ∧
      m.Looks r q ∧ m'.Looks r q ∧ s0.Valid r q ∧ isZero (s0.val r.toNat q.toNat) = false) ∧
    ((∃ c i j m m', Steps noLock (Method.fine gas) (Conf.init s0 calls) c ∧ c.Races i j m m') ↔
      ∃ c i j m m', Steps noLock (Method.fine gas) (Conf.init s0 calls) c ∧ c.RacesNow i j m m') := by
  have hD : ∀ i, ∀ m ∈ calls i, m.Direct ∧ m.mode = .read := by
    intro i m hm
    obtain ⟨r, q, h | h⟩ := hA i m hm <;> subst h <;> exact ⟨trivial, rfl⟩
  have now : (∃ c i j m m', Steps noLock (Method.fine gas) (Conf.init s0 calls) c ∧ c.RacesNow i j m m') →
      ∃ c i j m m', Steps noLock (Method.fine gas) (Conf.init s0 calls) c ∧ c.Races i j m m' := by
    rintro ⟨c, i, j, m, m', h, hr⟩
    exact ⟨c, i, j, m, m', h, hr.races⟩
  suffices key : ((∃ c i j m m', Steps noLock (Method.fine gas) (Conf.init s0 calls) c ∧ c.Races i j m m') →
      (s0.kind = .csr ∨ s0.kind = .csc) ∧ ∃ i j m m', ∃ r q : Int, i ≠ j ∧ m ∈ calls i ∧ m' ∈ calls j ∧
        m.Looks r q ∧ m'.Looks r q ∧ s0.Valid r q ∧ isZero (s0.val r.toNat q.toNat) = false) ∧
      ((s0.kind = .csr ∨ s0.kind = .csc) ∧ (∃ i j m m', ∃ r q : Int, i ≠ j ∧ m ∈ calls i ∧ m' ∈ calls j ∧
        m.Looks r q ∧ m'.Looks r q ∧ s0.Valid r q ∧ isZero (s0.val r.toNat q.toNat) = false) →
      ∃ c i j m m', Steps noLock (Method.fine gas) (Conf.init s0 calls) c ∧ c.RacesNow i j m m') from
    ⟨⟨key.1, fun h => now (key.2 h)⟩, fun h => key.2 (key.1 h), now⟩
  constructor
  · rintro ⟨c, i, j, m, m', h, hr⟩
    obtain ⟨h1, -, r, q, h2, h3, h4, h5⟩ := C89_races_partial hs hk
      (fun i m hm => ⟨(hD i m hm).1, by rw [(hD i m hm).2]; simp⟩) h hr
    obtain ⟨hne, f, k, g, h', l, hi, hj, -⟩ := hr
    have mi := (Owned.steps h i).2.2 m _ hi
    have mj := (Owned.steps h j).2.2 m' _ hj
    obtain ⟨r', q', hl'⟩ := hA j m' mj
    obtain ⟨rfl, rfl⟩ := h5 r' q' hl'
    exact ⟨h1, i, j, m, m', r', q', hne, mi, mj, h2, hl', h3, h4⟩
  · rintro ⟨hc, i, j, m, m', r, q, hne, mi, mj, li, lj, hv, hz⟩
    obtain ⟨p, store⟩ := looks_puts (gas := gas) hs hc hv hz
    obtain ⟨y, hy, py⟩ := store m li
    obtain ⟨y', hy', py'⟩ := store m' lj
    obtain ⟨c, g1, g2, g3, g4⟩ := reach_two (mode := noLock) (body := Method.fine gas) (calls := calls)
      (fun x a ha => ⟨by simp [noLock], (fine_splits gas).quiet a (hD x a ha).1.sound (hD x a ha).2 s0 hs⟩)
      hne mi mj hy hy'
    exact ⟨c, i, j, m, m', g1, hne, y.1, y.2, y'.1, y'.2, .elem 2 p, g3, g4, by rw [g2]; exact py, .inl (by rw [g2]; exact py')⟩

/-! ## Concrete cases -/

theorem progLook_looks : ∀ i, ∀ m ∈ progLook i, ∃ r q, m.Looks r q := by
  intro i m hm
  match i, hm with
  | 0, hm =>
    simp only [progLook, List.mem_cons, List.not_mem_nil, or_false] at hm
    rcases hm with rfl | rfl
    · exact ⟨_, _, .inl rfl⟩
    · exact ⟨_, _, .inl rfl⟩
  | 1, hm =>
    simp only [progLook, List.mem_cons, List.not_mem_nil, or_false] at hm
    subst hm
    exact ⟨_, _, .inr rfl⟩

/-- **C89** is false: reading one cell of a CSR matrix in two goroutines is a data race. -/
theorem C89_refuted : ∃ c i j m m', Steps noLock (Method.fine 9) (Conf.init (.csr csr50) progLook) c ∧ c.RacesNow i j m m' := by
  obtain ⟨h1, h2⟩ := C89_exact (gas := 9) csr50_reach (by simp [Mat.kind]) progLook_looks
  refine h2.1 (h1.2 ⟨.inl rfl, 0, 1, .at' 0 0, .element 0 0, 0, 0, by decide, ?_, ?_, .inl rfl, .inr rfl, ?_, ?_⟩)
  · exact List.mem_cons_of_mem _ List.mem_cons_self
  · exact List.mem_cons_self
  · exact ⟨by decide, by decide, by decide, by decide⟩
  · decide +kernel

/-- Interleaved, both calls deliver. -/
example : ((exec noLock (Method.fine 9) (List.replicate 21 [0, 1]).flatten
      (Conf.init (.csr csr50) (fun i : Fin 2 => [Method.at' 0 0, .at' 0 1, .copy]))).map fun c => (c.thr 1).res.map (·.2)) =
    some [.ok (.num 5), .ok (.num 0), .ok (.mat (.csr csr50))] := by decide +kernel

/-- With a writer it is another matter: without the lock, `At` of a valid index panics when a `Clear` comes between its accesses
(compare `C35_refuted_serial`). -/
example : ((exec noLock (Method.fine 9) (List.replicate 8 1 ++ List.replicate 6 0 ++ List.replicate 2 1)
      (Conf.init (.csr csr50) progClear)).map fun c => (c.thr 1).res.map (·.2)) = some [.panic] := by decide +kernel

end Mutex
end GB
