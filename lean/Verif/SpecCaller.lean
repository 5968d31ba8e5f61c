import Verif.SpecReplay

/-!
# What a function of the caller is asked and answers
-/

namespace GB

variable {T : Type}

/-- A function is asked about the entries one after the other, until it panics. The places and its answers, and whether it
has answered them all. -/
def answers (u : List T → T → Option T) : List T → List (Nat × Nat × T) → List (Nat × Nat × T) × Bool
  | _, [] => ([], true)
  | past, e :: es =>
    match u past e.2.2 with
    | none => ([], false)
    | some x => ((e.1, e.2.1, x) :: (answers u (past ++ [e.2.2]) es).1, (answers u (past ++ [e.2.2]) es).2)

/-- A plain table after values have been written to it in order. -/
def patch (t : Nat → Nat → T) (l : List (Nat × Nat × T)) : Nat → Nat → T :=
  l.foldl (fun t e i j => if i = e.1 ∧ j = e.2.1 then e.2.2 else t i j) t

/-- The values of a list of entries after the function has been asked about those of them that `ask` picks, until it
panics. -/
def replies (ask : Nat × Nat × T → Bool) (u : List T → T → Option T) : List T → List (Nat × Nat × T) → List T
  | _, [] => []
  | past, e :: es =>
    if ask e then
      match u past e.2.2 with
      | none => e.2.2 :: es.map fun e => e.2.2
      | some x => x :: replies ask u (past ++ [e.2.2]) es
    else e.2.2 :: replies ask u past es

/-- The entries a loop gets to see that looks at its context before each of them. -/
def seen (cancel : Option Nat) (es : List (Nat × Nat × T)) : List (Nat × Nat × T) :=
  match cancel with
  | none => es
  | some k => es.take k

/-- The outcome of a call whose function has answered everything, or has panicked. -/
def finish (done : Bool) (w : World T) : Res T Unit := if done then .ok () w else .panic w

end GB
