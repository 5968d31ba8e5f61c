import Verif.Model.Operators

/-!
# Model of the comparison of rune matrices (operators.go:443-490) and of sort/bubble.go

`rune` is `int32`; a `MatrixLogical[rune]` is a `Mat Rune`. `strings.Builder.WriteRune` and the `<` of
strings are not in the repository; they are modelled from the language specification: UTF-8 with
U+FFFD in place of an invalid code point, and bytewise lexicographic order.
-/

namespace GB

/-- Go's `rune`. -/
abbrev Rune := SInt 32

/-- The value of a rune. -/
def Rune.code (r : Rune) : Int := BitVec.toInt r

/-- A Unicode code point that is not a surrogate. -/
def Rune.valid (r : Rune) : Bool :=
  decide (0 ≤ r.code) && decide (r.code < 0x110000) && !(decide (0xD800 ≤ r.code) && decide (r.code < 0xE000))

/-- UTF-8 encoding of a code point. -/
def utf8 (n : Nat) : List Nat :=
  if n < 0x80 then [n]
  else if n < 0x800 then [0xC0 + n / 64, 0x80 + n % 64]
  else if n < 0x10000 then [0xE0 + n / 4096, 0x80 + n / 64 % 64, 0x80 + n % 64]
  else [0xF0 + n / 262144, 0x80 + n / 4096 % 64, 0x80 + n / 64 % 64, 0x80 + n % 64]

/-- What `WriteRune` appends. -/
def Rune.bytes (r : Rune) : List Nat := if r.valid then utf8 r.code.toNat else utf8 0xFFFD

namespace Runes
open M

/-- operators.go:477-487, the loop of `String`. -/
def stringLoop (p : Ref) : Nat → Mat.Iter → List Nat → M Rune (List Nat)
  | 0, it, b => if it.hasNext then (fun w => .hang w) else pure b
  | g + 1, it, b =>
    if it.hasNext then do
      let stop ← poll
      if stop then pure b
      else do
        let (it', _, _, r) ← ofObj p (fun m => m.step it)
        stringLoop p g it' (b ++ r.bytes)
    else pure b

/-- operators.go:472-490 `String`. Line 475, `b.Grow(s.Size())`: `strings.Builder.Grow` panics when its argument is
negative; otherwise it only reserves memory (running out of memory is not modelled). -/
def string (s : Ref) : M Rune (List Nat) := do
  let n ← ofObj s (fun m => .ok m.size)
  if n < 0 then M.fail
  else do
    let it ← iterOf s
    fun w => stringLoop s w.gas it [] w

/-- operators.go:464-466 `Less`. -/
def less (s m : Ref) : M Rune Bool := do
  let a ← string s
  let b ← string m
  pure (decide (a < b))

/-- operators.go:468-470 `Greater`. -/
def greater (s m : Ref) : M Rune Bool := do
  let a ← string s
  let b ← string m
  pure (decide (b < a))

/-- operators.go:444-462 `Compare`. -/
def compare (s m : Ref) : M Rune Int := do
  let stop ← poll
  if stop then pure 0
  else do
    let e ← Meth.equal s m
    if e then pure 0
    else do
      let stop ← poll
      if stop then pure 0
      else do
        let l ← less s m
        if l then pure (-1) else pure 1

/-- bubble.go:18-22 (and 24-28, 44-48, 50-54): `for enumerator.HasNext() { c, _, v := …; … }`. -/
def eachLoop (p : Ref) (body : Nat → Rune → M Rune Unit) : Nat → Mat.Iter → M Rune Unit
  | 0, it => if it.hasNext then (fun w => .hang w) else pure ()
  | g + 1, it =>
    if it.hasNext then do
      let (it', c, _, v) ← ofObj p (fun m => m.step it)
      body c v
      eachLoop p body g it'
    else pure ()

/-- `enumerator := p.Enumerate()` and the loop. -/
def each (p : Ref) (body : Nat → Rune → M Rune Unit) : M Rune Unit := do
  let it ← iterOf p
  fun w => eachLoop p body w.gas it w

/-- bubble.go:14-29 and 40-55, the body of the inner loop: `line` is `RowsAt` or `ColumnsAt`, `put k c v`
is `result.Set(k, c, v)` or `result.Set(c, k, v)`. -/
def exchange (result : Ref) (line : Mat Rune → Int → Out (Vec Rune)) (put : Nat → Nat → Rune → M Rune Unit)
    (j i : Nat) : M Rune Unit := do
  let vj ← ofObj result (fun m => line m j)
  let vj ← alloc vj.toMat
  let vi ← ofObj result (fun m => line m i)
  let vi ← alloc vi.toMat
  let x ← compare vj vi
  if x > 0 then do
    each vi (fun c v => put j c v)
    each vj (fun c v => put i c v)
  else pure ()

/-- bubble.go:12-30 and 38-56, the two loops. -/
def sortLines (size : Nat) (body : Nat → Nat → M Rune Unit) : M Rune Unit := do
  let _ ← forN (β := Unit) (size - 1) 0 (fun j => do
    let _ ← forN (β := Unit) (size - (j + 1)) (j + 1) (fun i => do
      body j i
      pure none)
    pure none)
  pure ()

/-- bubble.go:9-33 `BubbleRow`. -/
def bubbleRow (a : Ref) : M Rune Ref := do
  let size ← rowsOf a
  let result ← M.copy a
  sortLines size (exchange result Mat.rowsAt (fun k c v => M.set result k c v))
  pure result

/-- bubble.go:35-59 `BubbleColumns`. -/
def bubbleColumns (a : Ref) : M Rune Ref := do
  let size ← colsOf a
  let result ← M.copy a
  sortLines size (exchange result Mat.columnsAt (fun k c v => M.set result c k v))
  pure result

end Runes
end GB
