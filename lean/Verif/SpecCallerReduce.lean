import Verif.Model.CallerReduce

/-!
# What an operation of the caller is asked by a reduction
-/

namespace GB
namespace ReduceBy

variable {T : Type}

/-- The reduction as a plain loop, after the calls `log` and with the result `acc` so far: all calls of the operation made
by its end, and the result, or `none` when the operation or the mask has panicked. -/
def fold (op : List (T × T) → T → T → Option T) : List (T × T) → T → List (Turn T) → List (T × T) × Option T
  | log, acc, [] => (log, some acc)
  | log, _, .boom :: _ => (log, none)
  | log, acc, .skip :: ts => fold op log acc ts
  | log, acc, .send v :: ts =>
    match op log acc v with
    | none => (log ++ [(acc, v)], none)
    | some x => fold op (log ++ [(acc, v)]) x ts

end ReduceBy
end GB
