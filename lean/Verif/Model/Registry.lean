import Verif.Model.World

/-!
# Model of matrixRegistry.go

The registry is a Go map from type names to types; only the set of names is ever used
(`IsSparseMatrix` looks a name up). It is modelled by the list of names registered.
-/

namespace GB
namespace Registry

/-- matrixRegistry.go:18-24 `RegisterMatrix`: the new registry; `panic` when the name is taken. -/
def register (reg : List String) (name : String) : Out (List String) :=
  if name ∈ reg then .panic else .ok (name :: reg)

/-- A history of `RegisterMatrix` calls whose panics are recovered by the caller: each call and
whether it panicked, and the registry at the end. -/
def run (reg : List String) : List String → List Bool × List String
  | [] => ([], reg)
  | n :: ns =>
    match register reg n with
    | .ok reg' => let (bs, r) := run reg' ns; (false :: bs, r)
    | _ => let (bs, r) := run reg ns; (true :: bs, r)

/-- matrixRegistry.go:27-31 `IsSparseMatrix`, given the registry. -/
def isSparse {T : Type} [GoNum T] (reg : List String) (m : Mat T) : Bool := decide (m.typeName ∈ reg)

end Registry
end GB
