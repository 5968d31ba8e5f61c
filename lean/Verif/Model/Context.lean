/-!
# Model of context.go
-/

namespace GB

/-- context.go:8-15 `Mode`: an alias of `int`; `Blocking` is 0, `NonBlocking` is 1. -/
abbrev Mode := Int
/-- context.go:12. -/
def Mode.blocking : Mode := 0
/-- context.go:14. -/
def Mode.nonBlocking : Mode := 1

/-- A `context.Context` value. `other k parent` is any context of a type defined outside this package
(`context.Background`, `WithCancel`, `WithValue`, …, told apart by `k`, with or without a parent);
`graph` is a `*graphContect` (context.go:24-27). `cancelled` is the context's own cancellation. -/
inductive Ctx where
  | other (k : Nat) (cancelled : Bool) (parent : Option Ctx)
  | graph (parent : Ctx) (mode : Mode)

namespace Ctx

/-- context.go:30-32 `NewContext`. -/
def newContext (ctx : Ctx) (mode : Mode) : Ctx := .graph ctx mode

/-- context.go:39-45 `BlockingMode`: a type assertion on the outermost context only. -/
def blockingMode : Ctx → Mode × Bool
  | .graph _ mode => (mode, true)
  | .other _ _ _ => (Mode.blocking, false)

/-- `ctx.Done()` is closed: a `*graphContect` embeds its parent (context.go:25), so the call goes to the
parent; a derived context is done when it or its parent is. -/
def done : Ctx → Bool
  | .graph parent _ => parent.done
  | .other _ c none => c
  | .other _ c (some parent) => c || parent.done

end Ctx
end GB
