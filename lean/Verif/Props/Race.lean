import Verif.Lemmas.Race2
import Verif.Props.Mutex

/-!
# C88: data races in a `MutexMatrix`
-/

namespace GB
namespace Mutex

set_option linter.unusedSectionVars false

variable {T : Type} [GoNum T]

/-- The places are all there is: matrices of one type and dimensions that have the same at every place are equal. -/
theorem C88_places {s s' : Mat T} (h : Mat.Same s s') (hl : ∀ l, s.look l = s'.look l) : s = s' := by
  have arr : s.arrays = s'.arrays := by
    have h0 := hl .slices
    simp only [Mat.look, Option.some.injEq, Sum.inl.injEq] at h0
    refine List.ext_getElem h0 fun a h1 h2 => List.ext_getElem? fun i => ?_
    have := hl (.elem a i)
    simpa [Mat.look, h1, h2] using this
  have inl : ∀ {a b : List Nat}, (a.map .inl : List (Nat ⊕ T)) = b.map .inl → a = b :=
    fun h => List.map_injective_iff.2 Sum.inl_injective h
  have inr : ∀ {a b : List T}, (a.map .inr : List (Nat ⊕ T)) = b.map .inr → a = b :=
    fun h => List.map_injective_iff.2 Sum.inr_injective h
  obtain ⟨h1, h2, h3⟩ := h
  cases s <;> cases s' <;> simp only [Mat.kind, reduceCtorEq] at h1 <;> rename_i a b <;>
    simp only [Mat.arrays, List.cons.injEq, and_true] at arr <;> simp only [Mat.rows, Mat.cols] at h2 h3
  · obtain ⟨e1, e2, e3⟩ := arr
    obtain ⟨r, c, v, k, st⟩ := a
    obtain ⟨r', c', v', k', st'⟩ := b
    dsimp only at *
    rw [h2, h3, inl e1, inl e2, inr e3]
  · obtain ⟨e1, e2, e3⟩ := arr
    obtain ⟨r, c, v, k, st⟩ := a
    obtain ⟨r', c', v', k', st'⟩ := b
    dsimp only at *
    rw [h2, h3, inl e1, inl e2, inr e3]
  · obtain ⟨r, c, d⟩ := a
    obtain ⟨r', c', d'⟩ := b
    dsimp only at *
    rw [h2, h3, List.map_injective_iff.2 (fun x y h => inr h) arr]
  · obtain ⟨l, v⟩ := a
    obtain ⟨l', v'⟩ := b
    dsimp only at *
    rw [h2, inr arr]
  · obtain ⟨e1, e2⟩ := arr
    obtain ⟨l, v, k⟩ := a
    obtain ⟨l', v', k'⟩ := b
    dsimp only at *
    rw [h2, inl e1, inr e2]

theorem Conf.RacesNow.races {n : Nat} {R μ : Type} {c : Conf n μ (Mat T) R} {i j : Fin n} {m m' : μ} (h : c.RacesNow i j m m') :
    c.Races i j m m' := by
  obtain ⟨hne, f, k, g, h', l, h1, h2, h3, h4⟩ := h
  exact ⟨hne, f, k, g, h', l, h1, h2, h3.puts, h4.imp PutsNow.puts TakesNow.takes⟩

section
variable [GoStore T] {n gas : Nat} {s0 : Mat T} {calls : Fin n → List (Method T)}
  {c : Conf n (Method T) (Mat T) (Out (Val T))}

/-- **C88**, what races there are. Any number of goroutines, any programs of `At`, `Element`, `Set`, `Update`,
`RowsAt`, `ColumnsAt`, `RowsAtToArray`, `Copy`, `Rows`, `Columns` and `Size`, any interleaving: if two calls race then
the one that writes is `At` or `Element` of a non-zero cell of a CSR or CSC matrix, which writes back what is there; the
other holds the lock for reading too, and if it is `At` or `Element` then of the same cell. Missing for C88: those
races (`C88_exact`, `C88_refuted`), and `Values`, `Enumerate`, `Clear` and the methods that make another matrix
(`C88_refuted_values`, `C88_refuted_clear`). -/
theorem C88_races_partial (hs : Reach s0) (hk : s0.kind ≠ .svec) (hA : ∀ i, ∀ m ∈ calls i, m.Direct)
    (h : Steps Method.mode (Method.fine gas) (Conf.init s0 calls) c) {i j : Fin n} {m m' : Method T}
    (hr : c.Races i j m m') :
    (c.mat.kind = .csr ∨ c.mat.kind = .csc) ∧ m'.mode = .read ∧
    (∀ f k, c.Next i m f k → f c.mat = c.mat) ∧
    ∃ r q : Int, m.Looks r q ∧ c.mat.Valid r q ∧ isZero (c.mat.val r.toNat q.toNat) = false ∧
      ∀ r' q', m'.Looks r' q' → r' = r ∧ q' = q := by
  have hS := Serial.steps (direct_calls gas) h (Serial.init hs hA)
  have hW := Watched.steps hs hk hA h
  obtain ⟨hne, f, k, g, h', l, hi, hj, h1, h2⟩ := hr
  have free : ∀ {x : Fin n} {mx : Method T} {fx kx}, c.Next x mx fx kx → mx.mode = .free → NoTouch fx kx :=
    fun hx hm => (hW.free _ _ _ hx hm).1
  have hm' : m'.mode ≠ .free := by
    intro hm
    have := free hj hm c.mat l
    rcases h2 with h2 | h2
    · exact this.1 h2
    · exact this.2 h2
  have hm : m.mode = .read := by
    cases hm : m.mode with
    | read => rfl
    | free => exact absurd h1 (free hi hm c.mat l).1
    | write => exact absurd (hS.lock.alone ⟨_, hi⟩ hm ⟨_, hj⟩ (Ne.symm hne)) hm'
  have hm'r : m'.mode = .read := by
    cases hx : m'.mode with
    | read => rfl
    | free => exact absurd hx hm'
    | write =>
      have := hS.lock.alone ⟨_, hj⟩ hx ⟨_, hi⟩ hne
      rw [hm] at this; cases this
  have reach : Reach c.mat := by
    have := hS.still (fun x mx p hx hmx => ?_)
    · rw [this]; exact hS.inv
    · by_cases e : x = i
      · subst e; rw [hi] at hx; cases hx; rw [hm] at hmx; cases hmx
      · have := hS.lock.alone ⟨_, hx⟩ hmx ⟨_, hi⟩ (Ne.symm e)
        rw [hm] at this; cases this
  have Fi := hW.reads i m _ hi hm (f, k) (by simp [Prog.trace])
  have Fj := hW.reads j m' _ hj hm'r (g, h') (by simp [Prog.trace])
  have hcomp : c.mat.kind = .csr ∨ c.mat.kind = .csc := by
    by_contra hn
    exact Fi.2 (.inl hn) l h1
  have hlook : ∃ r q, m.Looks r q := by
    by_contra hn
    exact Fi.2 (.inr fun r q hl => hn ⟨r, q, hl⟩) l h1
  obtain ⟨r, q, hl⟩ := hlook
  obtain ⟨p, rfl, hp⟩ := (Fi.1 hcomp r q hl).1 l h1
  refine ⟨hcomp, hm'r, fun f' k' hn => ?_, r, q, hl, hp.spec.2.1, hp.spec.2.2, fun r' q' hl' => ?_⟩
  · exact (hS.reading i m _ hn hm).1
  · have hp' : Holds c.mat r' q' p := by
      rcases h2 with h2 | h2
      · obtain ⟨p', e, hp'⟩ := (Fj.1 hcomp r' q' hl').1 _ h2
        cases e; exact hp'
      · exact (Fj.1 hcomp r' q' hl').2 p h2
    exact hp'.unique reach hp

/-- **C88** for dense matrices and vectors: no race. -/
theorem C88_dense (hs : Reach s0) (hk : s0.kind = .dense ∨ s0.kind = .dvec) (hA : ∀ i, ∀ m ∈ calls i, m.Direct)
    (h : Steps Method.mode (Method.fine gas) (Conf.init s0 calls) c) (i j : Fin n) (m m' : Method T) :
    ¬ c.Races i j m m' := by
  intro hr
  have hk' : s0.kind ≠ .svec := by rcases hk with hk | hk <;> rw [hk] <;> simp
  have := (C88_races_partial hs hk' hA h hr).1
  rw [(C85_mutex (.inr rfl) h).1.kind] at this
  rcases hk with hk | hk <;> rw [hk] at this <;> simp at this

/-- **C88** for programs without `At` and `Element`: no race. -/
theorem C88_no_look (hs : Reach s0) (hk : s0.kind ≠ .svec) (hA : ∀ i, ∀ m ∈ calls i, m.Direct)
    (hL : ∀ i, ∀ m ∈ calls i, ∀ r q, ¬ m.Looks r q)
    (h : Steps Method.mode (Method.fine gas) (Conf.init s0 calls) c) (i j : Fin n) (m m' : Method T) :
    ¬ c.Races i j m m' := by
  intro hr
  obtain ⟨-, -, -, r, q, hl, -⟩ := C88_races_partial hs hk hA h hr
  obtain ⟨-, f, k, g, h', l, hi, -⟩ := hr
  exact hL i m ((Owned.steps h i).2.2 m _ hi) r q hl

/-- **C88**, exactly, for goroutines that only look: some execution has a race just if two of them look at the same
non-zero cell of a CSR or CSC matrix. It makes no difference whether an access is taken to touch what it may touch or what it
touches if it comes now. -/
theorem C88_exact (hs : Reach s0) (hk : s0.kind ≠ .svec) (hA : ∀ i, ∀ m ∈ calls i, ∃ r q, m.Looks r q) :
    ((∃ c i j m m', Steps Method.mode (Method.fine gas) (Conf.init s0 calls) c ∧ c.Races i j m m') ↔
    (s0.kind = .csr ∨ s0.kind = .csc) ∧ ∃ i j m m', ∃ r q : Int, i ≠ j ∧ m ∈ calls i ∧ m' ∈ calls j ∧
      m.Looks r q ∧ m'.Looks r q ∧ s0.Valid r q ∧ isZero (s0.val r.toNat q.toNat) = false) ∧
    ((∃ c i j m m', Steps Method.mode (Method.fine gas) (Conf.init s0 calls) c ∧ c.Races i j m m') ↔
      ∃ c i j m m', Steps Method.mode (Method.fine gas) (Conf.init s0 calls) c ∧ c.RacesNow i j m m') := by
  have hD : ∀ i, ∀ m ∈ calls i, m.Direct := by
    intro i m hm
    obtain ⟨r, q, h | h⟩ := hA i m hm <;> subst h <;> trivial
  have hR : ∀ i, ∀ m ∈ calls i, m.mode = .read := by
    intro i m hm
    obtain ⟨r, q, h | h⟩ := hA i m hm <;> subst h <;> rfl
  have now : (∃ c i j m m', Steps Method.mode (Method.fine gas) (Conf.init s0 calls) c ∧ c.RacesNow i j m m') →
      ∃ c i j m m', Steps Method.mode (Method.fine gas) (Conf.init s0 calls) c ∧ c.Races i j m m' := by
    rintro ⟨c, i, j, m, m', h, hr⟩
    exact ⟨c, i, j, m, m', h, hr.races⟩
  suffices key : ((∃ c i j m m', Steps Method.mode (Method.fine gas) (Conf.init s0 calls) c ∧ c.Races i j m m') →
      (s0.kind = .csr ∨ s0.kind = .csc) ∧ ∃ i j m m', ∃ r q : Int, i ≠ j ∧ m ∈ calls i ∧ m' ∈ calls j ∧
        m.Looks r q ∧ m'.Looks r q ∧ s0.Valid r q ∧ isZero (s0.val r.toNat q.toNat) = false) ∧
      ((s0.kind = .csr ∨ s0.kind = .csc) ∧ (∃ i j m m', ∃ r q : Int, i ≠ j ∧ m ∈ calls i ∧ m' ∈ calls j ∧
        m.Looks r q ∧ m'.Looks r q ∧ s0.Valid r q ∧ isZero (s0.val r.toNat q.toNat) = false) →
      ∃ c i j m m', Steps Method.mode (Method.fine gas) (Conf.init s0 calls) c ∧ c.RacesNow i j m m') from
    ⟨⟨key.1, fun h => now (key.2 h)⟩, fun h => key.2 (key.1 h), now⟩
  constructor
  · rintro ⟨c, i, j, m, m', h, hr⟩
    have hmat : c.mat = s0 := by
      clear hr
      generalize hc0 : (Conf.init s0 calls : Conf n (Method T) (Mat T) (Out (Val T))) = c0 at h
      induction h with
      | refl => subst hc0; rfl
      | @tail d e hd hde ih =>
        subst hc0
        have hS := Serial.steps (direct_calls gas) hd (Serial.init hs hD)
        cases hde with
        | @act i m rest res f k he =>
          have hph : (d.thr i).phase = .inside m (.act f k) := by rw [he]
          exact (hS.reading i m _ hph (hR i m ((Owned.steps hd i).2.2 m _ hph))).1.trans ih
        | @leave i m rest res r he =>
          show (d.release m.mode).mat = s0
          cases m.mode <;> exact ih
        | _ => exact ih
    obtain ⟨h1, -, -, r, q, h2, h3, h4, h5⟩ := C88_races_partial hs hk hD h hr
    rw [hmat] at h1 h3 h4
    obtain ⟨hne, f, k, g, h', l, hi, hj, -⟩ := hr
    have mi := (Owned.steps h i).2.2 m _ hi
    have mj := (Owned.steps h j).2.2 m' _ hj
    obtain ⟨r', q', hl'⟩ := hA j m' mj
    obtain ⟨rfl, rfl⟩ := h5 r' q' hl'
    exact ⟨h1, i, j, m, m', r', q', hne, mi, mj, h2, hl', h3, h4⟩
  · rintro ⟨hc, i, j, m, m', r, q, hne, mi, mj, li, lj, hv, hz⟩
    obtain ⟨p, store⟩ := looks_puts (gas := gas) hs hc hv hz
    obtain ⟨y, hy, py⟩ := store m li
    obtain ⟨y', hy', py'⟩ := store m' lj
    obtain ⟨c, g1, g2, g3, g4⟩ := reach_two (mode := Method.mode) (body := Method.fine gas) (calls := calls)
      (fun x a ha => ⟨by rw [hR x a ha]; simp, (fine_splits gas).quiet a (hD x a ha).sound (hR x a ha) s0 hs⟩)
      hne mi mj hy hy'
    exact ⟨c, i, j, m, m', g1, hne, y.1, y.2, y'.1, y'.2, .elem 2 p, g3, g4, by rw [g2]; exact py, .inl (by rw [g2]; exact py')⟩

end

/-! ## Concrete executions -/

/-- Two goroutines that read the same cell. -/
def progLook : Fin 2 → List (Method ℤ)
  | 0 => [.at' 0 1, .at' 0 0]
  | 1 => [.element 0 0]

/-- **C88** is false: `At(0, 0)` races with `Element(0, 0)`. -/
theorem C88_refuted : ∃ c i j m m', Steps Method.mode (Method.fine 9) (Conf.init (.csr csr50) progLook) c ∧
    c.RacesNow i j m m' := by
  have hA : ∀ i, ∀ m ∈ progLook i, ∃ r q, m.Looks r q := by
    intro i m hm
    match i, hm with
    | 0, hm =>
      simp only [progLook, List.mem_cons, List.not_mem_nil, or_false] at hm
      rcases hm with rfl | rfl
      · exact ⟨_, _, .inl rfl⟩
      · exact ⟨_, _, .inl rfl⟩
    | 1, hm =>
      simp only [progLook, List.mem_cons, List.not_mem_nil, or_false] at hm
      subst hm
      exact ⟨_, _, .inr rfl⟩
  obtain ⟨h1, h2⟩ := C88_exact (gas := 9) csr50_reach (by simp [Mat.kind]) hA
  refine h2.1 (h1.2 ?_)
  · refine ⟨.inl rfl, 0, 1, .at' 0 0, .element 0 0, 0, 0, by decide, ?_, ?_, .inl rfl, .inr rfl, ?_, ?_⟩
    · exact List.mem_cons_of_mem _ List.mem_cons_self
    · exact List.mem_cons_self
    · exact ⟨by decide, by decide, by decide, by decide⟩
    · decide +kernel

/-- `C88_exact` the other way: looking at different cells, no race. -/
example : ¬ ∃ c i j m m', Steps Method.mode (Method.fine 9) (Conf.init (.csr csr50) (fun i : Fin 2 =>
    [Method.at' 0 (i : ℕ)])) c ∧ c.Races i j m m' := by
  rw [(C88_exact csr50_reach (by simp [Mat.kind]) (fun i m hm => ⟨0, i, .inl (by simpa using hm)⟩)).1]
  rintro ⟨-, i, j, m, m', r, q, hne, hm, hm', h1, h2, -⟩
  simp only [List.mem_cons, List.not_mem_nil, or_false] at hm hm'
  subst hm hm'
  rcases h1 with h1 | h1 <;> cases h1
  rcases h2 with h2 | h2
  · injection h2 with _ h2
    exact hne (Fin.ext (by exact_mod_cast h2.symm))
  · cases h2

/-- `Set` and `Values`. -/
def progValues : Fin 2 → List (Method ℤ)
  | 0 => [.set 0 1 7]
  | 1 => [.values]

/-- **C88** is false: `Values` does not take the lock and races with `Set`. -/
theorem C88_refuted_values : ∃ c, Steps Method.mode (Method.fine 9) (Conf.init (.csr csr50) progValues) c ∧
    c.RacesNow 0 1 (.set 0 1 7) .values := by
  have hs : (exec Method.mode (Method.fine 9) (List.replicate 8 0 ++ [1]) (Conf.init (.csr csr50) progValues)).isSome = true := by
    rfl
  obtain ⟨c, hc⟩ := Option.isSome_iff_exists.1 hs
  have h2 : ((exec Method.mode (Method.fine 9) (List.replicate 8 0 ++ [1]) (Conf.init (.csr csr50) progValues)).map fun c =>
      ((c.thr 0).phase, (c.thr 1).phase, c.mat)) =
    some (.inside (.set 0 1 7) (wrCSR (fun s => do let l ← splice s.values 1 7; .ok { s with values := l })
        (bumpProg (· + 1) (.done (.ok .unit)) 1 1)),
      .inside .values (Method.atomic 9 .values), .csr { csr50 with cols := [0, 1] }) := by rfl
  rw [hc] at h2
  simp only [Option.map_some, Option.some.injEq, Prod.mk.injEq] at h2
  refine ⟨c, exec_steps Steps.refl hc, by decide, _, _, _, _, .len 2, h2.1, h2.2.1, ?_, .inr ?_⟩
  · rw [h2.2.2]
    exact ⟨.csr { csr50 with cols := [0, 1] }, ⟨rfl, rfl, rfl⟩, agree_refl _ _, .inl 2, rfl, by decide⟩
  · rw [h2.2.2]
    have h3 := agree_longer { csr50 with cols := [0, 1] } (v := [5]) (v' := [5, 7]) ⟨[7], rfl⟩
    refine ⟨.csr { csr50 with cols := [0, 1] }, .csr { csr50 with cols := [0, 1], values := [5, 7] }, ⟨rfl, rfl, rfl⟩,
      ⟨rfl, rfl, rfl⟩, agree_refl _ _, agree_symm h3, h3, .inl fun h => ?_⟩
    have h1 : Prog.done (Out.ok (Val.nat (T := ℤ) 1)) = (Prog.done (.ok (.nat 2)) : Prog (Mat ℤ) _) := h
    cases h1

/-- **C88** is false: `Clear` takes the lock for reading only and races with `At`. -/
theorem C88_refuted_clear : ∃ c, Steps Method.mode (Method.fine 9) (Conf.init (.csr csr50) progClear) c ∧
    c.RacesNow 0 1 .clear (.at' 0 0) := by
  have hs : (runClear (List.replicate 8 1 ++ [0, 0])).isSome = true := by rfl
  obtain ⟨c, hc⟩ := Option.isSome_iff_exists.1 hs
  have h2 : ((runClear (List.replicate 8 1 ++ [0, 0])).map fun c => ((c.thr 0).phase, (c.thr 1).phase, c.mat)) =
    some (.inside .clear clearProg, .inside (.at' 0 0) (rdCSR (fun m => idx m.values 0) fun old =>
          if isZero old then removeProg 1 0 0 (.done (.ok (.num old)))
          else wrCSR (fun m => do let l ← setIdx m.values 0 old; .ok { m with values := l })
            (.done (.ok (.num old)))), .csr csr50) := by rfl
  rw [hc] at h2
  simp only [Option.map_some, Option.some.injEq, Prod.mk.injEq] at h2
  refine ⟨c, exec_steps Steps.refl hc, by decide, _, _, _, _, .len 2, h2.1, h2.2.1, ?_, .inr ?_⟩
  · rw [h2.2.2]
    exact ⟨.csr csr50, ⟨rfl, rfl, rfl⟩, agree_refl _ _, .inl 0, rfl, by decide⟩
  · rw [h2.2.2]
    have h3 := agree_longer csr50 (v := []) (v' := [5]) ⟨[5], rfl⟩
    refine ⟨.csr csr50, .csr { csr50 with values := [] }, ⟨rfl, rfl, rfl⟩, ⟨rfl, rfl, rfl⟩, agree_refl _ _, h3,
      agree_symm h3, .inl fun h => ?_⟩
    cases h

/-- `C88_races_partial`, `C88_dense` and `C88_no_look` speak of executions like `run3`: its calls are direct. -/
example : ∀ i, ∀ m ∈ prog3 i, m.Direct := by
  intro i m hm
  match i, hm with
  | 0, hm =>
    simp only [prog3, List.mem_cons, List.not_mem_nil, or_false] at hm
    rcases hm with rfl | rfl <;> trivial
  | 1, hm =>
    simp only [prog3, List.mem_cons, List.not_mem_nil, or_false] at hm
    rcases hm with rfl | rfl <;> trivial

end Mutex
end GB
