import Verif.Model.ValueRange

/-!
# Ranges of values whose operations throw

`Model/ValueRange.lean` assumes that the values of a `value_range` or a `bounded_value` are copied, compared and assigned without
exceptions.  Here each of these operations may throw.  What it is about is where the exception goes: which functions of
maths/value_range.hpp and maths/bounded_value.hpp are `noexcept` in which build, which copies are made by the caller and which inside the
function.

Simplifications: arguments are variables of the caller, so each parameter passed by value is copied, and by the caller
([expr.call]); destroying a value and swapping do not throw; `size`, `mid`, `interpolate` and `fraction`, which compute, and the setters of
open bounds, which use `next_value` and `prev_value`, are in `RangeThrowArith.lean`.
-/

namespace Wite.Maths.RangeThrow

open Wite Wite.Maths

/-- The operations of the value type that may throw: copy and move construction, comparisons, copy and move assignment, and arithmetic
(used in `RangeThrowArith.lean`). -/
inductive Ev where
  | copy | move | compare | assign | moveAssign | arith
  deriving DecidableEq, Repr

/-- The value type, as far as its exceptions go. -/
structure Throws (α : Type) where
  /-- The exception of an operation when it is the `n`-th that the program performs. -/
  fails : Ev → Nat → Option Exc
  /-- What an assignment that throws leaves of the old value, given the old and the new one. -/
  torn : α → α → α

/-- The object the functions are called on, a `bounded_value` (maths/bounded_value.hpp:39-40); a `value_range` is its member
`bounds`.  `done` counts the operations performed. -/
structure World (α : Type) (lb hb : Boundary) where
  done : Nat
  bounds : ValueRange α lb hb
  value : α
  deriving DecidableEq, Repr

variable {α : Type} {lb hb : Boundary}

/-- Perform an operation. -/
def op (T : Throws α) (e : Ev) : St (World α lb hb) PUnit := fun w =>
  match T.fails e w.done with
  | none => (.ok ⟨⟩, { w with done := w.done + 1 })
  | some x => (.throw x, { w with done := w.done + 1 })

/-- The body of a `noexcept` function. -/
def nothrow {β : Type} (x : St (World α lb hb) β) : St (World α lb hb) β := fun w => (noexcept (x.run w).1, (x.run w).2)

/-- The body of a function declared `_WITE_RELEASE_NOEXCEPT` (core/assert.hpp:15, 54-55 and 66-67). -/
def releaseNoexcept {β : Type} (b : Build) (x : St (World α lb hb) β) : St (World α lb hb) β :=
  match b with
  | .debug => x
  | .aborting => nothrow x
  | .release => nothrow x

/-- A comparison of two values. -/
def compareOp (T : Throws α) (p : Bool) : St (World α lb hb) Bool := do
  op T .compare
  pure p

/-- An assertion about a comparison (core/assert.hpp:42-47, 52 and 64), which release builds do not evaluate. -/
def assertCompare (T : Throws α) (b : Build) (p : Bool) (msg : String) : St (World α lb hb) PUnit :=
  match b with
  | .release => pure ⟨⟩
  | .debug | .aborting => do
    let q ← compareOp T p
    St.lift (debugAssert b q msg)

/-- `_min = x` (maths/value_range.hpp:76). -/
def assignMin (T : Throws α) (x : α) : St (World α lb hb) PUnit := fun w =>
  match T.fails .assign w.done with
  | none => (.ok ⟨⟩, { w with done := w.done + 1, bounds := { w.bounds with lo := x } })
  | some e => (.throw e, { w with done := w.done + 1, bounds := { w.bounds with lo := T.torn w.bounds.lo x } })

/-- `_max = x` (maths/value_range.hpp:86). -/
def assignMax (T : Throws α) (x : α) : St (World α lb hb) PUnit := fun w =>
  match T.fails .assign w.done with
  | none => (.ok ⟨⟩, { w with done := w.done + 1, bounds := { w.bounds with hi := x } })
  | some e => (.throw e, { w with done := w.done + 1, bounds := { w.bounds with hi := T.torn w.bounds.hi x } })

/-- `value = …` with a temporary (maths/bounded_value.hpp:35). -/
def assignValue (T : Throws α) (x : α) : St (World α lb hb) PUnit := fun w =>
  match T.fails .moveAssign w.done with
  | none => (.ok ⟨⟩, { w with done := w.done + 1, value := x })
  | some e => (.throw e, { w with done := w.done + 1, value := T.torn w.value x })

variable [LinearOrder α]

/-- `below_min` (maths/value_range.hpp:110-116), given its parameter. -/
def belowMinV (T : Throws α) (x : α) : St (World α lb hb) Bool := nothrow do
  let w ← St.get
  compareOp T (w.bounds.belowMin x)

/-- `above_max` (maths/value_range.hpp:118-124), given its parameter. -/
def aboveMaxV (T : Throws α) (x : α) : St (World α lb hb) Bool := nothrow do
  let w ← St.get
  compareOp T (w.bounds.aboveMax x)

/-- `contains` (maths/value_range.hpp:108), given its parameter, which is copied for each of the two functions called. -/
def containsV (T : Throws α) (x : α) : St (World α lb hb) Bool := nothrow do
  op T .copy
  if ← belowMinV T x then
    pure false
  else do
    op T .copy
    let c ← aboveMaxV T x
    pure (!c)

/-- The copy of a member that is returned (maths/value_range.hpp:69 and 79). -/
def getV (T : Throws α) (get : ValueRange α lb hb → α) : St (World α lb hb) α := nothrow do
  let w ← St.get
  op T .copy
  pure (get w.bounds)

/-- `operator==` (maths/value_range.hpp:64-66). -/
def eqV (T : Throws α) (s : ValueRange α lb hb) : St (World α lb hb) Bool := nothrow do
  let w ← St.get
  if ← compareOp T (w.bounds.lo == s.lo) then
    compareOp T (w.bounds.hi == s.hi)
  else
    pure false

/-- `operator!=` (maths/value_range.hpp:67). -/
def neV (T : Throws α) (s : ValueRange α lb hb) : St (World α lb hb) Bool := nothrow do
  let e ← eqV T s
  pure (!e)

/-- `empty` (maths/value_range.hpp:95). -/
def emptyV (T : Throws α) : St (World α lb hb) Bool := nothrow do
  let w ← St.get
  compareOp T (w.bounds.lo == w.bounds.hi)

/-- `clamp` (maths/value_range.hpp:128), given its parameter: `std::clamp` compares twice at most and returns a reference, which is
copied. -/
def clampV (T : Throws α) (x : α) : St (World α lb hb) α := nothrow do
  let w ← St.get
  if w.bounds.hi < w.bounds.lo then
    St.ub
  else if ← compareOp T (decide (x < w.bounds.lo)) then do
    op T .copy
    pure w.bounds.lo
  else if ← compareOp T (decide (w.bounds.hi < x)) then do
    op T .copy
    pure w.bounds.hi
  else do
    op T .copy
    pure x

/-- The setter `min(x)` (maths/value_range.hpp:70-77) of a range closed below, given its parameter. -/
def setMinV (T : Throws α) (b : Build) (x : α) : St (World α .closed hb) PUnit := releaseNoexcept b do
  match b with
  | .release => pure ⟨⟩
  | .debug | .aborting => do
    op T .copy
    let c ← aboveMaxV T x
    St.lift (debugAssert b (!c) "value_range setting min > max")
  assignMin T x

/-- The setter `max(x)` (maths/value_range.hpp:80-87) of a range closed above, given its parameter. -/
def setMaxV (T : Throws α) (b : Build) (x : α) : St (World α lb .closed) PUnit := releaseNoexcept b do
  match b with
  | .release => pure ⟨⟩
  | .debug | .aborting => do
    op T .copy
    let c ← belowMinV T x
    St.lift (debugAssert b (!c) "value_range setting max < min")
  assignMax T x

/-- The constructor (maths/value_range.hpp:55-57), given its parameters. -/
def makeV (T : Throws α) (b : Build) (x y : α) : St (World α lb hb) (ValueRange α lb hb) := releaseNoexcept b do
  op T .copy
  op T .copy
  assertCompare T b (decide (x ≤ y)) "value_range min should be <= max"
  pure ⟨x, y⟩

/-- `overlap` (maths/value_range.hpp:97-106): the result of the constructor is moved into the `std::optional`, by the move constructor
that is `noexcept` (common/constructor_macros.hpp:15). -/
def overlapV (T : Throws α) (b : Build) (s : ValueRange α lb hb) : St (World α lb hb) (Option (ValueRange α lb hb)) :=
  releaseNoexcept b do
    let w ← St.get
    let r := w.bounds
    assertCompare T b (decide (r.lo ≤ r.hi)) "value_range min should be <= max"
    assertCompare T b (decide (s.lo ≤ s.hi)) "value_range min should be <= max"
    if ← compareOp T (decide (s.hi < r.lo)) then
      pure none
    else if ← compareOp T (decide (r.hi < s.lo)) then
      pure none
    else do
      op T .compare
      op T .copy
      op T .compare
      op T .copy
      let o ← makeV T b (stdMax r.lo s.lo) (stdMin r.hi s.hi)
      nothrow do
        op T .move
        op T .move
      pure (some o)

/-- `is_in_bounds` (maths/bounded_value.hpp:32): the value is copied into the parameter of `contains`. -/
def inBoundsV (T : Throws α) : St (World α lb hb) Bool := nothrow do
  let w ← St.get
  op T .copy
  containsV T w.value

/-- `bounded_value::clamp` (maths/bounded_value.hpp:34-37). -/
def clampValueV (T : Throws α) : St (World α lb hb) PUnit := nothrow do
  let w ← St.get
  op T .copy
  let y ← clampV T w.value
  assignValue T y

/-- What a call returns. -/
inductive Ret (α : Type) (lb hb : Boundary) where
  | nothing
  | truth (b : Bool)
  | val (x : α)
  | range (r : ValueRange α lb hb)
  | maybe (r : Option (ValueRange α lb hb))
  deriving DecidableEq, Repr

/-- A call: the functions of `value_range` on `bounds` with variables of the caller as arguments, and those of `bounded_value`. -/
inductive Call (α : Type) (lb hb : Boundary) where
  | make (x y : α)
  | getMin
  | getMax
  | eq (s : ValueRange α lb hb)
  | ne (s : ValueRange α lb hb)
  | empty
  | belowMin (x : α)
  | aboveMax (x : α)
  | contains (x : α)
  | clamp (x : α)
  | overlap (s : ValueRange α lb hb)
  | inBounds
  | clampValue
  deriving DecidableEq, Repr

/-- The call as the caller makes it: arguments passed by value are copied first (maths/value_range.hpp:55, 108, 110, 118 and 128). -/
def Call.run (T : Throws α) (b : Build) : Call α lb hb → St (World α lb hb) (Ret α lb hb)
  | .make x y => do
    op T .copy
    op T .copy
    let r ← makeV T b x y
    pure (.range r)
  | .getMin => do
    let x ← getV T (·.lo)
    pure (.val x)
  | .getMax => do
    let x ← getV T (·.hi)
    pure (.val x)
  | .eq s => do
    let t ← eqV T s
    pure (.truth t)
  | .ne s => do
    let t ← neV T s
    pure (.truth t)
  | .empty => do
    let t ← emptyV T
    pure (.truth t)
  | .belowMin x => do
    op T .copy
    let t ← belowMinV T x
    pure (.truth t)
  | .aboveMax x => do
    op T .copy
    let t ← aboveMaxV T x
    pure (.truth t)
  | .contains x => do
    op T .copy
    let t ← containsV T x
    pure (.truth t)
  | .clamp x => do
    op T .copy
    let y ← clampV T x
    pure (.val y)
  | .overlap s => do
    let o ← overlapV T b s
    pure (.maybe o)
  | .inBounds => do
    let t ← inBoundsV T
    pure (.truth t)
  | .clampValue => do
    clampValueV T
    pure .nothing

/-- The call of the setter `min(x)` (maths/value_range.hpp:70): the argument is copied first. -/
def callSetMin (T : Throws α) (b : Build) (x : α) : St (World α .closed hb) PUnit := do
  op T .copy
  setMinV T b x

/-- The call of the setter `max(x)` (maths/value_range.hpp:80): the argument is copied first. -/
def callSetMax (T : Throws α) (b : Build) (x : α) : St (World α lb .closed) PUnit := do
  op T .copy
  setMaxV T b x

end Wite.Maths.RangeThrow
