import Verif.Model.RangeThrow

/-!
# Ranges of values whose arithmetic throws

The functions of maths/value_range.hpp that compute: `size`, `width`, `mid`, `interpolate`, `fraction` and the setters of open bounds, for a
value type of the caller whose operators may throw.

Simplifications: as in `RangeThrow.lean`; the results of operators are temporaries that no function copies or moves again; the arguments
of `maths::interpolate` and `maths::fraction` are evaluated from left to right, which the language does not say and which makes no
difference here; the value type is not a floating-point type; dividing by 2 and adding 1 are operators of the value type with an `int`;
`numeric_limits<T>::quiet_NaN()` does not throw.
-/

namespace Wite.Maths.RangeThrow

open Wite Wite.Maths

/-- The arithmetic of the value type that the functions use; `δ` are the values of `double`, and what a `double` times a value is. -/
structure Arith (α δ : Type) where
  /-- `a - b` -/
  sub : α → α → α
  /-- `a + b` -/
  add : α → α → α
  /-- `a / 2` -/
  half : α → α
  /-- `a + 1` -/
  succ : α → α
  /-- `a - 1` -/
  pred : α → α
  /-- A value as a `double`. -/
  toDouble : α → δ
  /-- `d * a` -/
  scale : δ → α → δ
  /-- `static_cast<Value_T>` of such a product -/
  fromDouble : δ → α
  /-- `d / a` -/
  over : δ → α → δ
  /-- `numeric_limits<Value_T>::quiet_NaN()` and `signaling_NaN()` as a `double`, by build. -/
  nan : Build → δ

variable {α δ : Type} {lb hb : Boundary} [LinearOrder α]

/-- `size` (maths/value_range.hpp:89-92). -/
def sizeV (T : Throws α) (A : Arith α δ) (b : Build) : St (World α lb hb) α := releaseNoexcept b do
  let w ← St.get
  assertCompare T b (decide (w.bounds.lo ≤ w.bounds.hi)) "value_range min should be <= max"
  op T .arith
  pure (A.sub w.bounds.hi w.bounds.lo)

/-- `width` (maths/value_range.hpp:93). -/
def widthV (T : Throws α) (A : Arith α δ) (b : Build) : St (World α lb hb) α := releaseNoexcept b (sizeV T A b)

/-- `mid` (maths/value_range.hpp:126). -/
def midV (T : Throws α) (A : Arith α δ) (b : Build) : St (World α lb hb) α := nothrow do
  let w ← St.get
  let s ← sizeV T A b
  op T .arith
  op T .arith
  pure (A.sub w.bounds.hi (A.half s))

/-- `maths::interpolate` (maths/numeric.hpp:127-130), given its parameters. -/
def interpolateFn (T : Throws α) (A : Arith α δ) (f : δ) (lo hi : α) : St (World α lb hb) α := nothrow do
  op T .arith
  op T .arith
  op T .arith
  op T .arith
  pure (A.add lo (A.fromDouble (A.scale f (A.sub hi lo))))

/-- `interpolate` (maths/value_range.hpp:130-132), given its parameter: it becomes a `double`, the bounds are copied. -/
def interpolateV (T : Throws α) (A : Arith α δ) (x : α) : St (World α lb hb) α := nothrow do
  let w ← St.get
  op T .arith
  op T .copy
  op T .copy
  interpolateFn T A (A.toDouble x) w.bounds.lo w.bounds.hi

/-- `maths::fraction` (maths/numeric.hpp:132-143), given its parameters: two subtractions, a conversion and a division. -/
def fractionFn (T : Throws α) (A : Arith α δ) (b : Build) (x lo hi : α) : St (World α lb hb) δ := nothrow do
  if ← compareOp T (hi == lo) then
    pure (A.nan b)
  else do
    op T .arith
    op T .arith
    op T .arith
    op T .arith
    pure (A.over (A.toDouble (A.sub x lo)) (A.sub hi lo))

/-- `fraction` (maths/value_range.hpp:134), given its parameter: it is copied again, and so are the bounds. -/
def fractionV (T : Throws α) (A : Arith α δ) (b : Build) (x : α) : St (World α lb hb) δ := nothrow do
  let w ← St.get
  op T .copy
  op T .copy
  op T .copy
  fractionFn T A b x w.bounds.lo w.bounds.hi

/-- `next_value` (maths/numeric.hpp:23-30) for a type that is not a floating-point type, given its parameter. -/
def nextValueV (T : Throws α) (A : Arith α δ) (x : α) : St (World α lb hb) α := nothrow do
  op T .arith
  pure (A.succ x)

/-- `prev_value` (maths/numeric.hpp:32-39) for a type that is not a floating-point type, given its parameter. -/
def prevValueV (T : Throws α) (A : Arith α δ) (x : α) : St (World α lb hb) α := nothrow do
  op T .arith
  pure (A.pred x)

/-- The setter `min(x)` (maths/value_range.hpp:70-77) of a range open below, given its parameter. -/
def setMinOpenV (T : Throws α) (A : Arith α δ) (b : Build) (x : α) : St (World α .opened hb) PUnit := releaseNoexcept b do
  match b with
  | .release => pure ⟨⟩
  | .debug | .aborting => do
    op T .copy
    let y ← nextValueV T A x
    let c ← aboveMaxV T y
    St.lift (debugAssert b (!c) "value_range setting min > max")
  assignMin T x

/-- The setter `max(x)` (maths/value_range.hpp:80-87) of a range open above, given its parameter. -/
def setMaxOpenV (T : Throws α) (A : Arith α δ) (b : Build) (x : α) : St (World α lb .opened) PUnit := releaseNoexcept b do
  match b with
  | .release => pure ⟨⟩
  | .debug | .aborting => do
    op T .copy
    let y ← prevValueV T A x
    let c ← belowMinV T y
    St.lift (debugAssert b (!c) "value_range setting max < min")
  assignMax T x

/-- A call of a function that computes and changes nothing, with a variable of the caller as the argument. -/
inductive Computes (α : Type) where
  | size
  | width
  | mid
  | interpolate (x : α)
  | fraction (x : α)
  deriving DecidableEq, Repr

/-- The call as the caller makes it: arguments passed by value are copied first (maths/value_range.hpp:130 and 134). -/
def Computes.run (T : Throws α) (A : Arith α δ) (b : Build) : Computes α → St (World α lb hb) (α ⊕ δ)
  | .size => do
    let x ← sizeV T A b
    pure (Sum.inl x)
  | .width => do
    let x ← widthV T A b
    pure (Sum.inl x)
  | .mid => do
    let x ← midV T A b
    pure (Sum.inl x)
  | .interpolate x => do
    op T .copy
    let y ← interpolateV T A x
    pure (Sum.inl y)
  | .fraction x => do
    op T .copy
    let d ← fractionV T A b x
    pure (Sum.inr d)

/-- The call of the setter `min(x)` (maths/value_range.hpp:70): the argument is copied first. -/
def callSetMinOpen (T : Throws α) (A : Arith α δ) (b : Build) (x : α) : St (World α .opened hb) PUnit := do
  op T .copy
  setMinOpenV T A b x

/-- The call of the setter `max(x)` (maths/value_range.hpp:80): the argument is copied first. -/
def callSetMaxOpen (T : Throws α) (A : Arith α δ) (b : Build) (x : α) : St (World α lb .opened) PUnit := do
  op T .copy
  setMaxOpenV T A b x

end Wite.Maths.RangeThrow
