import Verif.Model.Numeric
import Verif.Model.State

/-!
# maths/value_range.hpp, maths/bounded_value.hpp, maths/io.hpp

`value_range<T, LBOUND, HBOUND>` is generic in the value type.  Functions that only compare are modelled
for any type with `<`, `<=` and `==`; functions that compute take the operations of the value type as
arguments or are modelled for integer types.
-/

namespace Wite.Maths

open Wite

/-- `enum class range_boundary` (maths/value_range.hpp:47). -/
inductive Boundary where
  | closed
  | opened
  deriving DecidableEq, Repr

/-- The members `_min` and `_max` (maths/value_range.hpp:137-138). -/
structure ValueRange (α : Type) (lb hb : Boundary) where
  lo : α
  hi : α
  deriving DecidableEq, Repr

namespace ValueRange

variable {α : Type} {lb hb : Boundary}

/-- The constructor (maths/value_range.hpp:55-57). -/
def make [LE α] [DecidableLE α] (b : Build) (min max : α) : Outcome (ValueRange α lb hb) := do
  debugAssert b (decide (min ≤ max)) "value_range min should be <= max"
  pure ⟨min, max⟩

/-- `operator==` (maths/value_range.hpp:64-66). -/
def eq [BEq α] (r s : ValueRange α lb hb) : Bool := r.lo == s.lo && r.hi == s.hi

/-- `operator!=` (maths/value_range.hpp:67). -/
def ne [BEq α] (r s : ValueRange α lb hb) : Bool := !eq r s

/-- `below_min(val)` (maths/value_range.hpp:110-116). -/
def belowMin [LT α] [DecidableLT α] [LE α] [DecidableLE α] (r : ValueRange α lb hb) (x : α) : Bool :=
  match lb with
  | .closed => decide (x < r.lo)
  | .opened => decide (x ≤ r.lo)

/-- `above_max(val)` (maths/value_range.hpp:118-124). -/
def aboveMax [LT α] [DecidableLT α] [LE α] [DecidableLE α] (r : ValueRange α lb hb) (x : α) : Bool :=
  match hb with
  | .closed => decide (x > r.hi)
  | .opened => decide (x ≥ r.hi)

/-- `contains(val)` (maths/value_range.hpp:108). -/
def contains [LT α] [DecidableLT α] [LE α] [DecidableLE α] (r : ValueRange α lb hb) (x : α) : Bool :=
  !(r.belowMin x || r.aboveMax x)

/-- `min(x)`, the setter (maths/value_range.hpp:70-77).  `next` is `next_value` for the value type. -/
def setMin [LT α] [DecidableLT α] [LE α] [DecidableLE α] (next : α → Outcome α) (b : Build) (x : α) :
    St (ValueRange α lb hb) PUnit := do
  let r ← St.get
  match b with
  | .release => pure ⟨⟩
  | .debug | .aborting =>
    match lb with
    | .closed => St.lift (debugAssert b (!r.aboveMax x) "value_range setting min > max")
    | .opened => do
      let y ← St.lift (next x)
      St.lift (debugAssert b (!r.aboveMax y) "value_range setting min > max")
  St.set { r with lo := x }

/-- `max(x)`, the setter (maths/value_range.hpp:80-87).  `prev` is `prev_value` for the value type. -/
def setMax [LT α] [DecidableLT α] [LE α] [DecidableLE α] (prev : α → Outcome α) (b : Build) (x : α) :
    St (ValueRange α lb hb) PUnit := do
  let r ← St.get
  match b with
  | .release => pure ⟨⟩
  | .debug | .aborting =>
    match hb with
    | .closed => St.lift (debugAssert b (!r.belowMin x) "value_range setting max < min")
    | .opened => do
      let y ← St.lift (prev x)
      St.lift (debugAssert b (!r.belowMin y) "value_range setting max < min")
  St.set { r with hi := x }

/-- `size()` and `width()` for an integer type (maths/value_range.hpp:89-93): the difference is computed in
the promoted type and converted to the value type. -/
def sizeInt (t : IntTy) (b : Build) (r : ValueRange Int lb hb) : Outcome Int := do
  debugAssert b (decide (r.lo ≤ r.hi)) "value_range min should be <= max"
  let d ← t.sub r.hi r.lo
  pure (t.wrap d)

/-- `empty()` (maths/value_range.hpp:95). -/
def empty [BEq α] (r : ValueRange α lb hb) : Bool := r.lo == r.hi

/-- `overlap(other)` (maths/value_range.hpp:97-106). -/
def overlap [LT α] [DecidableLT α] [LE α] [DecidableLE α] (b : Build) (r s : ValueRange α lb hb) :
    Outcome (Option (ValueRange α lb hb)) := do
  debugAssert b (decide (r.lo ≤ r.hi)) "value_range min should be <= max"
  debugAssert b (decide (s.lo ≤ s.hi)) "value_range min should be <= max"
  if r.lo > s.hi ∨ r.hi < s.lo then
    pure none
  else do
    let o ← make b (stdMax r.lo s.lo) (stdMin r.hi s.hi)
    pure (some o)

/-- `mid()` for an integer type (maths/value_range.hpp:126); the function is `noexcept`. -/
def midInt (t : IntTy) (b : Build) (r : ValueRange Int lb hb) : Outcome Int := noexcept do
  let s ← r.sizeInt t b
  let m ← t.sub r.hi (Int.tdiv s 2)
  pure (t.wrap m)

/-- `std::clamp(v, lo, hi)`: undefined if `hi < lo`. -/
def stdClamp [LT α] [DecidableLT α] (v lo hi : α) : Outcome α :=
  if hi < lo then .ub
  else if v < lo then .ok lo
  else if hi < v then .ok hi
  else .ok v

/-- `clamp(val)` (maths/value_range.hpp:128). -/
def clamp [LT α] [DecidableLT α] (r : ValueRange α lb hb) (x : α) : Outcome α := stdClamp x r.lo r.hi

/-- `interpolate(fraction)` for an integer type (maths/value_range.hpp:130-132).  The parameter is of the
value type, so it is an integer; it is converted to `double` for the call. -/
def interpolateI (t : IntTy) (r : ValueRange Int lb hb) (f : Int) : Outcome Int :=
  interpolateInt t (Flt.ofInt _ f) r.lo r.hi

/-- `interpolate(fraction)` for a floating-point type (maths/value_range.hpp:130-132). -/
def interpolateF {F : Fmt} (r : ValueRange (Flt F) lb hb) (f : Flt F) : Flt F :=
  interpolateFlt (f.convert _) r.lo r.hi

/-- The call `r.interpolate(f)` with a `double` argument for an integer type (maths/value_range.hpp:130-132): the argument is
converted to the parameter's type, the value type. -/
def interpolateArgI (t : IntTy) (r : ValueRange Int lb hb) (f : Double) : Outcome Int := do
  let k ← truncFlt t f
  r.interpolateI t k

/-- The call `r.interpolate(f)` with a `double` argument for a floating-point type (maths/value_range.hpp:130-132). -/
def interpolateArgF {F : Fmt} (r : ValueRange (Flt F) lb hb) (f : Double) : Flt F :=
  r.interpolateF (f.convert F)

/-- `fraction(value)` for an integer type (maths/value_range.hpp:134). -/
def fractionI (t : IntTy) (r : ValueRange Int lb hb) (v : Int) : Outcome Double :=
  fractionInt t v r.lo r.hi

/-- `fraction(value)` for a floating-point type (maths/value_range.hpp:134). -/
def fractionF {F : Fmt} (r : ValueRange (Flt F) lb hb) (v : Flt F) : Double :=
  fractionFlt v r.lo r.hi

/-- `size()` for a floating-point type (maths/value_range.hpp:89-93). -/
def sizeFlt {F : Fmt} (b : Build) (r : ValueRange (Flt F) lb hb) : Outcome (Flt F) := do
  debugAssert b (decide (r.lo ≤ r.hi)) "value_range min should be <= max"
  pure (r.hi.sub r.lo)

/-- `mid()` for a floating-point type (maths/value_range.hpp:126). -/
def midFlt {F : Fmt} (b : Build) (r : ValueRange (Flt F) lb hb) : Outcome (Flt F) := noexcept do
  let s ← r.sizeFlt b
  pure (r.hi.sub (s.div (Flt.ofInt F 2)))

/-- `min(left, others...)` of ranges (maths/value_range.hpp:162-170). -/
def vminR [LT α] [DecidableLT α] : ValueRange α lb hb → ValueRange α lb hb → List (ValueRange α lb hb) → α
  | r, s, [] => stdMin r.lo s.lo
  | r, s, u :: us => stdMin r.lo (vminR s u us)

/-- `max(left, others...)` of ranges (maths/value_range.hpp:174-182). -/
def vmaxR [LT α] [DecidableLT α] : ValueRange α lb hb → ValueRange α lb hb → List (ValueRange α lb hb) → α
  | r, s, [] => stdMax r.hi s.hi
  | r, s, u :: us => stdMax r.hi (vmaxR s u us)

/-- `envelope(values...)` of values (maths/value_range.hpp:186-191); the function is `noexcept`. -/
def envelopeV [LT α] [DecidableLT α] [LE α] [DecidableLE α] (b : Build) (x y : α) (rest : List α) :
    Outcome (ValueRange α .closed .closed) :=
  let (min, max) := vminmax x y rest
  noexcept (make b min max)

/-- `std::ranges::minmax`: the first smallest and the last largest element; undefined for an empty range. -/
def rangesMinmax [LT α] [DecidableLT α] : List α → Outcome (α × α)
  | [] => .ub
  | x :: xs => .ok (xs.foldl (fun m y => if y < m.1 then (y, m.2) else if y < m.2 then m else (m.1, y)) (x, x))

/-- `envelope(range)` (maths/value_range.hpp:193-197 and 205-209, which have the same body). -/
def envelopeL [LT α] [DecidableLT α] [LE α] [DecidableLE α] (b : Build) (xs : List α) :
    Outcome (ValueRange α .closed .closed) := noexcept do
  let m ← rangesMinmax xs
  make b m.1 m.2

/-- `envelope(ranges...)` (maths/value_range.hpp:199-203). -/
def envelopeR [LT α] [DecidableLT α] [LE α] [DecidableLE α] (b : Build) (r s : ValueRange α lb hb)
    (rest : List (ValueRange α lb hb)) : Outcome (ValueRange α lb hb) :=
  noexcept (make b (vminR r s rest) (vmaxR r s rest))

/-- `operator<<` (maths/io.hpp:14-32 and 34-51): the characters inserted.  `text` is what inserting a value writes. -/
def print (text : α → List Char) (r : ValueRange α lb hb) : List Char :=
  let out :=
    match lb with
    | .closed => "[ ".toList
    | .opened => "( ".toList
  let out := out ++ text r.lo ++ ", ".toList ++ text r.hi
  match hb with
  | .closed => out ++ " ]".toList
  | .opened => out ++ " )".toList

end ValueRange

/-- `bounded_value` (maths/bounded_value.hpp:39-40). -/
structure BoundedValue (α : Type) (lb hb : Boundary) where
  value : α
  bounds : ValueRange α lb hb
  deriving DecidableEq, Repr

namespace BoundedValue

variable {α : Type} {lb hb : Boundary}

/-- The constructor with default bounds (maths/bounded_value.hpp:27-30) for an integer type. -/
def makeInt (b : Build) (t : IntTy) (x : Int) : Outcome (BoundedValue Int lb hb) := do
  let r ← ValueRange.make b t.minValue t.maxValue
  pure ⟨x, r⟩

/-- The constructor with default bounds (maths/bounded_value.hpp:27-30) for a floating-point type. -/
def makeFlt {F : Fmt} (b : Build) (x : Flt F) : Outcome (BoundedValue (Flt F) lb hb) := do
  let r ← ValueRange.make b (Flt.min F) (Flt.max F)
  pure ⟨x, r⟩

/-- `is_in_bounds()` (maths/bounded_value.hpp:32). -/
def isInBounds [LT α] [DecidableLT α] [LE α] [DecidableLE α] (v : BoundedValue α lb hb) : Bool :=
  v.bounds.contains v.value

/-- `clamp()` (maths/bounded_value.hpp:34-37). -/
def clamp [LT α] [DecidableLT α] : St (BoundedValue α lb hb) PUnit := do
  let v ← St.get
  let x ← St.lift (v.bounds.clamp v.value)
  St.set { v with value := x }

end BoundedValue

end Wite.Maths
