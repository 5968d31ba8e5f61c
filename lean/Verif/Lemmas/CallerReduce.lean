import Verif.SpecCallerReduce

/-!
# Every interleaving of the goroutines of a reduction is the plain loop
-/

namespace GB
namespace ReduceBy

set_option linter.unusedSectionVars false

variable {T : Type} {op : List (T × T) → T → T → Option T}

theorem fold_log : ∀ (ts : List (Turn T)) (log : List (T × T)) (acc : T), log <+: (fold op log acc ts).1
  | [], log, _ => List.prefix_refl log
  | .boom :: _, log, _ => List.prefix_refl log
  | .skip :: ts, log, acc => fold_log ts log acc
  | .send v :: ts, log, acc => by
    unfold fold
    split
    · exact List.prefix_append _ _
    · exact (List.prefix_append log [(acc, v)]).trans (fold_log ts _ _)

/-- What the reducer still has to do with a value it has received. -/
def Red.At : Red T → T → List (Turn T) → Prop
  | .run a, acc, p => a = acc ∧ p = []
  | .applying a v, acc, p => a = acc ∧ p = [.send v]
  | _, _, _ => False

/-- The turns the producer still has to take; any when it was stopped. -/
def Prod.At : Prod T → List (Turn T) → Prop
  | .loop ts, r => r = ts
  | .sending v ts, r => r = .send v :: ts
  | .signal, r => r = []
  | .stopped, _ => True
  | _, _ => False

/-- The states of an accepted call, `total` being what the plain loop does. -/
inductive Phase (op : List (T × T) → T → T → Option T) (unit : T) (script : List (Turn T)) (s : Sys T) : Prop
  | start : s.dead = false → s.main = .start → s.prod = .idle → s.red = .run unit → s.log = [] →
      s.doneClosed = false → s.sliceClosed = false → Phase op unit script s
  | going (acc p r) : s.dead = false → s.main = .waiting → s.red.At acc p → s.prod.At r →
      fold op s.log acc (p ++ r) = fold op [] unit script → (s.prod = .stopped → s.cancelled = true) →
      (Turn.boom ∈ r → Turn.boom ∈ script) → s.doneClosed = false → s.sliceClosed = false → Phase op unit script s
  | delivering (acc) : s.dead = false → s.main = .waiting → s.prod = .finished → s.red = .deliver acc →
      fold op [] unit script = (s.log, some acc) → s.doneClosed = false → s.sliceClosed = false → Phase op unit script s
  | ending (acc) : s.dead = false → (s.main = .got acc ∨ s.main = .closing acc ∨ s.main = .returned acc) →
      s.prod = .finished → (s.red = .closing ∨ s.red = .finished) → fold op [] unit script = (s.log, some acc) →
      Phase op unit script s
  | dead : s.dead = true → s.main = .waiting → s.log <+: (fold op [] unit script).1 → (fold op [] unit script).2 = none →
      (Turn.boom ∉ script → s.log = (fold op [] unit script).1) → Phase op unit script s

variable [Zero T] {unit : T} {script : List (Turn T)}

theorem fold_boom_none (op : List (T × T) → T → T → Option T) : ∀ {red : Red T} {acc : T} {p : List (Turn T)} (log ts),
    red.At acc p → (fold op log acc (p ++ .boom :: ts)).2 = none := by
  intro red acc p log ts h
  cases red <;> simp only [Red.At] at h
  · obtain ⟨rfl, rfl⟩ := h; rfl
  · obtain ⟨rfl, rfl⟩ := h
    simp only [List.cons_append, List.nil_append, fold]
    split <;> rfl

theorem fold_skip (op : List (T × T) → T → T → Option T) : ∀ {red : Red T} {acc : T} {p : List (Turn T)} (log ts),
    red.At acc p → fold op log acc (p ++ .skip :: ts) = fold op log acc (p ++ ts) := by
  intro red acc p log ts h
  cases red <;> simp only [Red.At] at h
  · obtain ⟨rfl, rfl⟩ := h; rfl
  · obtain ⟨rfl, rfl⟩ := h
    simp only [List.cons_append, List.nil_append, fold]

theorem Phase.step {s t : Sys T} (h : Phase op unit script s) (hs : Step op script true s t) : Phase op unit script t := by
  cases h with
  | start hd hm hp hr hl h1 h2 =>
    cases hs with
    | accept _ _ _ =>
      refine .going unit [] script hd rfl ?_ rfl ?_ (by simp) id h1 h2
      · show Red.At s.red unit []
        rw [hr]; exact ⟨rfl, rfl⟩
      · show fold op s.log unit ([] ++ script) = _
        rw [hl]; rfl
    | _ => simp_all
  | going acc p r hd hm hr hp hf hc hb h1 h2 =>
    cases hs with
    | accept _ h => rw [hm] at h; cases h
    | reject _ h => rw [hm] at h; cases h
    | pollStop _ h hc' =>
      exact .going acc p r hd hm hr trivial hf (fun _ => hc') hb h1 h2
    | masked _ h _ =>
      rw [h] at hp; cases hp
      exact .going acc p _ hd hm hr rfl ((fold_skip op _ _ hr).symm.trans hf) (by simp)
        (fun h => hb (List.mem_cons_of_mem _ h)) h1 h2
    | maskBoom _ h _ =>
      rw [h] at hp; cases hp
      refine .dead rfl hm ?_ ?_ (fun h => absurd (hb (List.mem_cons_self ..)) h)
      · rw [← hf]; exact fold_log _ _ _
      · rw [← hf]; exact fold_boom_none op _ _ hr
    | next _ h _ =>
      rw [h] at hp; cases hp
      exact .going acc p _ hd hm hr rfl hf (by simp) hb h1 h2
    | loopEnd _ h =>
      rw [h] at hp; cases hp
      exact .going acc p _ hd hm hr rfl hf (by simp) hb h1 h2
    | send _ h hr' _ =>
      rw [h] at hp; cases hp
      rw [hr'] at hr; obtain ⟨rfl, rfl⟩ := hr
      exact .going _ _ _ hd hm ⟨rfl, rfl⟩ rfl hf (by simp)
        (fun h => hb (List.mem_cons_of_mem _ h)) h1 h2
    | apply _ hr' ho =>
      rw [hr'] at hr; obtain ⟨rfl, rfl⟩ := hr
      simp only [List.cons_append, List.nil_append, fold, ho] at hf
      exact .going _ [] r hd hm ⟨rfl, rfl⟩ hp hf hc hb h1 h2
    | applyBoom _ hr' ho =>
      rw [hr'] at hr; obtain ⟨rfl, rfl⟩ := hr
      simp only [List.cons_append, List.nil_append, fold, ho] at hf
      refine .dead rfl hm ?_ ?_ (fun _ => ?_)
      · rw [← hf]
      · rw [← hf]
      · rw [← hf]
    | sendClosed _ _ h => rw [h2] at h; cases h
    | signal _ h hr' _ =>
      rw [h] at hp; cases hp
      rw [hr'] at hr; obtain ⟨rfl, rfl⟩ := hr
      exact .delivering _ hd hm rfl rfl hf.symm h1 h2
    | signalClosed _ _ h => rw [h1] at h; cases h
    | recvClosed _ _ h => rw [h2] at h; cases h
    | doneClosed _ _ h => rw [h1] at h; cases h
    | deliver _ h => rw [h] at hr; cases hr
    | closeOut _ h => rw [h] at hr; cases hr
    | closeDone _ h => rw [hm] at h; cases h
    | closeSlice _ h => rw [hm] at h; cases h
    | panicDone _ h => rw [hm] at h; cases h
    | panicSlice _ h => rw [hm] at h; cases h
  | delivering acc hd hm hp hr hf h1 h2 =>
    cases hs with
    | deliver _ h _ =>
      rw [hr] at h; cases h
      exact .ending acc hd (Or.inl rfl) hp (Or.inl rfl) hf
    | _ => simp_all
  | ending acc hd hm hp hr hf =>
    cases hs with
    | closeOut _ h => exact .ending acc hd hm hp (Or.inr rfl) hf
    | closeDone _ h =>
      rw [h] at hm
      simp only [Reduce.Main.got.injEq, reduceCtorEq, or_false] at hm
      subst hm
      exact .ending _ hd (Or.inr (Or.inl rfl)) hp hr hf
    | closeSlice _ h =>
      rw [h] at hm
      simp only [Reduce.Main.closing.injEq, reduceCtorEq, or_false, false_or] at hm
      subst hm
      exact .ending _ hd (Or.inr (Or.inr rfl)) hp hr hf
    | accept _ h => rw [h] at hm; simp at hm
    | reject _ h => rw [h] at hm; simp at hm
    | deliver _ h => rw [h] at hr; simp at hr
    | apply _ h => rw [h] at hr; simp at hr
    | applyBoom _ h => rw [h] at hr; simp at hr
    | recvClosed _ h => rw [h] at hr; simp at hr
    | doneClosed _ h => rw [h] at hr; simp at hr
    | panicDone _ h => rw [h] at hm; simp at hm
    | panicSlice _ h => rw [h] at hm; simp at hm
    | _ => simp_all
  | dead hd => cases hs <;> simp_all

theorem Phase.init (c : Bool) : Phase op unit script (Sys.init unit c) := .start rfl rfl rfl rfl rfl rfl rfl

theorem Phase.cancel {s : Sys T} (h : Phase op unit script s) : Phase op unit script { s with cancelled := true } := by
  cases h with
  | start hd hm hp hr hl h1 h2 => exact .start hd hm hp hr hl h1 h2
  | going acc p r hd hm hr hp hf _ hb h1 h2 => exact .going acc p r hd hm hr hp hf (fun _ => rfl) hb h1 h2
  | delivering acc hd hm hp hr hf h1 h2 => exact .delivering acc hd hm hp hr hf h1 h2
  | ending acc hd hm hp hr hf => exact .ending acc hd hm hp hr hf
  | dead hd hm hl hf hb => exact .dead hd hm hl hf hb

theorem phase_env {c : Bool} {t : Sys T} (h : StepsEnv op script true (Sys.init unit c) t) : Phase op unit script t := by
  induction h with
  | refl => exact .init c
  | step _ hs ih => exact ih.step hs
  | cancel _ ih => exact ih.cancel

theorem Steps.env {fits : Bool} {s t : Sys T} (h : Steps op script fits s t) : StepsEnv op script fits s t := by
  induction h with
  | refl => exact .refl
  | tail _ hs ih => exact .step ih hs

theorem Steps.cancelled {fits : Bool} {s t : Sys T} (h : Steps op script fits s t) : t.cancelled = s.cancelled := by
  induction h with
  | refl => rfl
  | tail _ hs ih => rw [← ih]; cases hs <;> rfl

theorem Steps.trans {fits : Bool} {s t u : Sys T} (h : Steps op script fits s t) (h' : Steps op script fits t u) :
    Steps op script fits s u := by
  induction h' with
  | refl => exact h
  | tail _ hs ih => exact .tail ih hs

/-- Someone can go on unless the call has ended. -/
theorem Phase.progress {s : Sys T} (h : Phase op unit script s) (hc : s.cancelled = false) :
    (∃ t, Step op script true s t) ∨ s.dead = true ∨
      (∃ acc, s.main = .returned acc ∧ s.prod = .finished ∧ s.red = .finished) := by
  cases h with
  | start hd hm => exact Or.inl ⟨_, .accept hd hm rfl⟩
  | going acc p r hd hm hr hp hf hst hb h1 h2 =>
    left
    cases hred : s.red with
    | applying a v =>
      cases ho : op s.log a v with
      | none => exact ⟨_, .applyBoom hd hred ho⟩
      | some x => exact ⟨_, .apply hd hred ho⟩
    | run a =>
      cases hprod : s.prod with
      | loop ts =>
        cases ts with
        | nil => exact ⟨_, .loopEnd hd hprod⟩
        | cons t ts =>
          cases t with
          | send v => exact ⟨_, .next hd hprod hc⟩
          | skip => exact ⟨_, .masked hd hprod hc⟩
          | boom => exact ⟨_, .maskBoom hd hprod hc⟩
      | sending v ts => exact ⟨_, .send hd hprod hred h2⟩
      | signal => exact ⟨_, .signal hd hprod hred h1⟩
      | stopped => rw [hst hprod] at hc; cases hc
      | idle => rw [hprod] at hp; cases hp
      | finished => rw [hprod] at hp; cases hp
    | deliver a => rw [hred] at hr; cases hr
    | closing => rw [hred] at hr; cases hr
    | finished => rw [hred] at hr; cases hr
  | delivering acc hd hm hp hr => exact Or.inl ⟨_, .deliver hd hr hm⟩
  | ending acc hd hm hp hr =>
    rcases hr with hr | hr
    · exact Or.inl ⟨_, .closeOut hd hr⟩
    · rcases hm with hm | hm | hm
      · exact Or.inl ⟨_, .closeDone hd hm⟩
      · exact Or.inl ⟨_, .closeSlice hd hm⟩
      · exact Or.inr (Or.inr ⟨acc, hm, hp, hr⟩)
  | dead hd => exact Or.inr (Or.inl hd)

/-- An upper bound for the steps to go. -/
def Sys.togo (script : List (Turn T)) (s : Sys T) : Nat :=
  (match s.prod with
    | .idle => 3 * script.length + 3
    | .loop ts => 3 * ts.length + 3
    | .sending _ ts => 3 * ts.length + 5
    | .signal => 2
    | _ => 0) +
  (match s.red with
    | .run _ => 3
    | .applying _ _ => 4
    | .deliver _ => 2
    | .closing => 1
    | .finished => 0) +
  (match s.main with
    | .start => 4
    | .waiting => 3
    | .got _ => 2
    | .closing _ => 1
    | _ => 0) +
  (if s.dead then 0 else 1)

theorem Phase.less {s t : Sys T} (h : Phase op unit script s) (hs : Step op script true s t) :
    t.togo script < s.togo script := by
  cases hs with
  | accept hd hm _ =>
    cases h <;> simp_all [Sys.togo]
  | reject _ _ h => cases h
  | recvClosed hd hr hc =>
    cases h <;> simp_all
  | doneClosed hd hr hc =>
    cases h <;> simp_all
  | panicDone hd hm => cases h <;> simp_all
  | panicSlice hd hm => cases h <;> simp_all
  | _ => simp_all [Sys.togo]; try omega

theorem ends_len : ∀ (n : Nat) (f : Nat → Sys T), Phase op unit script (f 0) →
    (∀ k, k < n → Step op script true (f k) (f (k + 1))) → n + (f n).togo script ≤ (f 0).togo script ∧ Phase op unit script (f n)
  | 0, f, h, _ => ⟨by omega, h⟩
  | n + 1, f, h, hs => by
    obtain ⟨h1, h2⟩ := ends_len n f h (fun k hk => hs k (by omega))
    have := h2.less (hs n (by omega))
    exact ⟨by omega, h2.step (hs n (by omega))⟩

/-- From every state the end can be reached. -/
theorem Phase.ends {s : Sys T} (h : Phase op unit script s) (hc : s.cancelled = false) :
    ∃ t, Steps op script true s t ∧ ∀ u, ¬ Step op script true t u := by
  generalize hn : s.togo script = n
  induction n using Nat.strongRecOn generalizing s with
  | _ n ih =>
    by_cases hx : ∃ t, Step op script true s t
    · obtain ⟨t, ht⟩ := hx
      have hct : t.cancelled = false := by rw [← hc]; exact (Steps.tail .refl ht).cancelled
      obtain ⟨u, hu, hstuck⟩ := ih (t.togo script) (hn ▸ h.less ht) (h.step ht) hct rfl
      exact ⟨u, (Steps.tail .refl ht).trans hu, hstuck⟩
    · exact ⟨s, .refl, fun u hu => hx ⟨u, hu⟩⟩

/-! ## A rejected mask -/

/-- The states of a rejected call. -/
structure Rejected (s : Sys T) : Prop where
  main : s.main = .start ∨ s.main = .panicking ∨ s.main = .panicking2 ∨ s.main = .panicked
  prod : s.prod = .idle
  zero : ∀ e ∈ s.log, e.2 = 0
  red : ∀ a v, s.red = .applying a v → v = 0
  early : s.main ≠ .panicked → s.log = [] ∧ s.sliceClosed = false ∧ ∀ a v, s.red ≠ .applying a v
  late : s.red ≠ .closing ∧ s.red ≠ .finished

theorem Rejected.step {s t : Sys T} (h : Rejected s) (hs : Step op script false s t) : Rejected t := by
  obtain ⟨hm, hp, hz, hr, he, hl⟩ := h
  cases hs with
  | accept _ _ h => cases h
  | reject _ h _ =>
    exact ⟨Or.inr (Or.inl rfl), hp, hz, hr, fun _ => he (by rw [h]; simp), hl⟩
  | apply _ h _ =>
    have h0 := hr _ _ h
    refine ⟨hm, hp, fun e h' => ?_, by simp, fun hne => absurd h ((he hne).2.2 _ _), by simp⟩
    rcases List.mem_append.1 h' with h' | h'
    · exact hz e h'
    · rw [List.mem_singleton.1 h']; exact h0
  | applyBoom _ h _ =>
    have h0 := hr _ _ h
    refine ⟨hm, hp, fun e h' => ?_, hr, fun hne => absurd h ((he hne).2.2 _ _), hl⟩
    rcases List.mem_append.1 h' with h' | h'
    · exact hz e h'
    · rw [List.mem_singleton.1 h']; exact h0
  | recvClosed _ h hc =>
    refine ⟨hm, hp, hz, fun a v h' => ?_, fun hne => ?_, by simp⟩
    · simp only [Red.applying.injEq] at h'; exact h'.2.symm
    · rw [(he hne).2.1] at hc; cases hc
  | doneClosed _ h hc =>
    exact ⟨hm, hp, hz, by simp, fun hne => ⟨(he hne).1, (he hne).2.1, by simp⟩, by simp⟩
  | deliver _ _ h => rw [h] at hm; simp at hm
  | closeOut _ h => exact absurd h hl.1
  | closeDone _ h => rw [h] at hm; simp at hm
  | closeSlice _ h => rw [h] at hm; simp at hm
  | panicDone _ h =>
    exact ⟨Or.inr (Or.inr (Or.inl rfl)), hp, hz, hr, fun _ => he (by rw [h]; simp), hl⟩
  | panicSlice _ h =>
    exact ⟨Or.inr (Or.inr (Or.inr rfl)), hp, hz, hr, fun hne => absurd rfl hne, hl⟩
  | _ => simp_all

theorem Rejected.init (c : Bool) : Rejected (Sys.init unit c) :=
  ⟨Or.inl rfl, rfl, by simp [Sys.init], by simp [Sys.init], fun _ => ⟨rfl, rfl, by simp [Sys.init]⟩, by simp [Sys.init]⟩

theorem rejected_env {c : Bool} {t : Sys T} (h : StepsEnv op script false (Sys.init unit c) t) : Rejected t := by
  induction h with
  | refl => exact .init c
  | step _ hs ih => exact ih.step hs
  | cancel _ ih => exact ⟨ih.main, ih.prod, ih.zero, ih.red, ih.early, ih.late⟩

/-- The reducer of a rejected call may receive any number of zeros from the closed channel. -/
theorem zeros (n : Nat) : ∀ (s : Sys T) (acc : T), s.dead = false → s.red = .run acc → s.sliceClosed = true →
    ∃ t, Steps op script false s t ∧ t.main = s.main ∧
      t.log = (fold op s.log acc (List.replicate n (.send 0))).1 ∧
      t.dead = (fold op s.log acc (List.replicate n (.send 0))).2.isNone := by
  induction n with
  | zero => exact fun s acc hd _ _ => ⟨s, .refl, rfl, rfl, hd⟩
  | succ n ih =>
    intro s acc hd hr hc
    have h1 : Step op script false s { s with red := .applying acc 0 } := .recvClosed hd hr hc
    rw [List.replicate_succ]
    simp only [fold]
    cases ho : op s.log acc 0 with
    | none =>
      exact ⟨_, .tail (.tail .refl h1) (.applyBoom hd rfl ho), rfl, rfl, rfl⟩
    | some x =>
      have h2 : Step op script false { s with red := .applying acc 0 }
          { s with red := .run x, log := s.log ++ [(acc, 0)] } := .apply hd rfl ho
      obtain ⟨t, ht, hm, hl, hdd⟩ := ih { s with red := .run x, log := s.log ++ [(acc, 0)] } x hd rfl hc
      exact ⟨t, (Steps.tail (.tail .refl h1) h2).trans ht, hm, hl, hdd⟩

end ReduceBy
end GB
