import Verif.SpecOps
import Mathlib.Algebra.BigOperators.Group.Finset.Basic

/-!
# What a search with any predicate does, round by round
-/

namespace GB

variable {T : Type} [GoRing T]

/-- The vector a round of the search makes: 0 at the vertices already seen, `∑ A(i, l)·f(l)` elsewhere. -/
def nextLevel (A : Mat T) (f seen : Nat → T) (i : Nat) : T :=
  if GoNum.glt 0 (seen i) then 0 else ∑ l ∈ Finset.range A.cols, A.val i l * f l

/-- The vertices seen, after the vertices of `x` are added. -/
def withLevel (seen x : Nat → T) (i : Nat) : T := if isZero (x i) then seen i else x i

/-- `before` is the state in which a call of the predicate is made, `last` the one its previous call left: the caller's
objects (those below `own`) are the same, and the vector `p` has length `n` and holds the next level, computed with the
graph as it is now. -/
structure Asked (a p : Ref) (own n : Nat) (f seen : Nat → T) (last before : World T) : Prop where
  old : ∀ q, q < own → before.heap q = last.heap q
  wf : (before.heap p).WF
  kind : (before.heap p).kind = .dvec
  rows : (before.heap p).rows = n
  vals : ∀ i, i < n → (before.heap p).val i 0 = nextLevel (last.heap a) f seen i

/-- How a search with the predicate `c` ends that has at most `k` rounds to go: `f` is the frontier, `seen` what was seen,
`last` the state the previous call of `c` left. In each round `c` is called once, on the vector `p`. If it answers true, the
search ends there and returns `p`; if it panics or does not return, so does the search; if it answers false, the search goes
on from the vector and the graph as `c` left them. After the last round the result is 0 everywhere. -/
inductive Rounds (c : Ref → M T Bool) (a p : Ref) (own n : Nat) :
    Nat → (Nat → T) → (Nat → T) → World T → Res T Ref → Prop
  | over {f seen last w} (old : ∀ q, q < own → w.heap q = last.heap q) (kind : (w.heap p).kind = .dvec)
      (rows : (w.heap p).rows = n) (zero : ∀ i, i < n → (w.heap p).val i 0 = 0) :
      Rounds c a p own n 0 f seen last (.ok p w)
  | found {k f seen last before w} (h : Asked a p own n f seen last before) (hc : c p before = .ok true w) :
      Rounds c a p own n (k + 1) f seen last (.ok p w)
  | panics {k f seen last before w} (h : Asked a p own n f seen last before) (hc : c p before = .panic w) :
      Rounds c a p own n (k + 1) f seen last (.panic w)
  | hangs {k f seen last before w} (h : Asked a p own n f seen last before) (hc : c p before = .hang w) :
      Rounds c a p own n (k + 1) f seen last (.hang w)
  | next {k f seen last before w r} (h : Asked a p own n f seen last before) (hc : c p before = .ok false w)
      (hn : Rounds c a p own n k (fun i => (w.heap p).val i 0) (withLevel seen fun i => (w.heap p).val i 0) w r) :
      Rounds c a p own n (k + 1) f seen last r

/-- `before` is the state in which the predicate is called after the context was cancelled, `last` the one its previous call
left: the caller's objects are the same, and the vector is 0 everywhere. -/
structure Blank (p : Ref) (own n : Nat) (last before : World T) : Prop where
  old : ∀ q, q < own → before.heap q = last.heap q
  wf : (before.heap p).WF
  kind : (before.heap p).kind = .dvec
  rows : (before.heap p).rows = n
  zero : ∀ i, i < n → (before.heap p).val i 0 = 0
  cancel : before.cancel = some 0

/-- How a search ends whose context is cancelled and that has `k` rounds to go: in each the predicate is called on the zero
vector, whatever it left there before. -/
inductive Idle (c : Ref → M T Bool) (p : Ref) (own n : Nat) : Nat → World T → Res T Ref → Prop
  | over {last w} (old : ∀ q, q < own → w.heap q = last.heap q) (kind : (w.heap p).kind = .dvec)
      (rows : (w.heap p).rows = n) (zero : ∀ i, i < n → (w.heap p).val i 0 = 0) : Idle c p own n 0 last (.ok p w)
  | found {k last before w} (h : Blank p own n last before) (hc : c p before = .ok true w) :
      Idle c p own n (k + 1) last (.ok p w)
  | panics {k last before w} (h : Blank p own n last before) (hc : c p before = .panic w) :
      Idle c p own n (k + 1) last (.panic w)
  | hangs {k last before w} (h : Blank p own n last before) (hc : c p before = .hang w) :
      Idle c p own n (k + 1) last (.hang w)
  | next {k last before w r} (h : Blank p own n last before) (hc : c p before = .ok false w) (hn : Idle c p own n k w r) :
      Idle c p own n (k + 1) last r

/-- `Rounds` for a predicate that may cancel the context: when it has, the rest of the search is `Idle`. -/
inductive RoundsCut (c : Ref → M T Bool) (a p : Ref) (own n : Nat) :
    Nat → (Nat → T) → (Nat → T) → World T → Res T Ref → Prop
  | over {f seen last w} (old : ∀ q, q < own → w.heap q = last.heap q) (kind : (w.heap p).kind = .dvec)
      (rows : (w.heap p).rows = n) (zero : ∀ i, i < n → (w.heap p).val i 0 = 0) :
      RoundsCut c a p own n 0 f seen last (.ok p w)
  | found {k f seen last before w} (h : Asked a p own n f seen last before) (hc : c p before = .ok true w) :
      RoundsCut c a p own n (k + 1) f seen last (.ok p w)
  | panics {k f seen last before w} (h : Asked a p own n f seen last before) (hc : c p before = .panic w) :
      RoundsCut c a p own n (k + 1) f seen last (.panic w)
  | hangs {k f seen last before w} (h : Asked a p own n f seen last before) (hc : c p before = .hang w) :
      RoundsCut c a p own n (k + 1) f seen last (.hang w)
  | next {k f seen last before w r} (h : Asked a p own n f seen last before) (hc : c p before = .ok false w)
      (hw : w.cancel = none)
      (hn : RoundsCut c a p own n k (fun i => (w.heap p).val i 0) (withLevel seen fun i => (w.heap p).val i 0) w r) :
      RoundsCut c a p own n (k + 1) f seen last r
  | cut {k f seen last before w r} (h : Asked a p own n f seen last before) (hc : c p before = .ok false w)
      (hw : w.cancel = some 0) (hn : Idle c p own n k w r) : RoundsCut c a p own n (k + 1) f seen last r

end GB
