import Verif.Model.IntTy
import Verif.Model.FloatArith

/-!
# maths/numeric.hpp

`next_value`, `prev_value`, the variadic `min`, `max`, `minmax`, and `interpolate`, `fraction`.
Floating-point operations are those of IEEE 754 (`FloatArith.lean`), without extended intermediate
precision (`FLT_EVAL_METHOD` 0); `interpolateFlt` and `fractionFlt` are for types no wider than `double`
(for `long double` the products and quotients would be computed in that type); versions in exact arithmetic over a field are modelled beside them.
-/

namespace Wite.Maths

open Wite

/-- `next_value` for an integer type (maths/numeric.hpp:24-30, branch 28): `value + 1` in the promoted
type, converted back to `T`. -/
def nextInt (t : IntTy) (v : Int) : Outcome Int := do
  let r ← t.add v 1
  pure (t.wrap r)

/-- `prev_value` for an integer type (maths/numeric.hpp:33-39, branch 37). -/
def prevInt (t : IntTy) (v : Int) : Outcome Int := do
  let r ← t.sub v 1
  pure (t.wrap r)

/-- `next_value` for a floating-point type (maths/numeric.hpp:26): toward
`std::numeric_limits<T>::max()`. -/
def nextFlt {F : Fmt} (x : Flt F) : Flt F := x.nextToward (Flt.max F)

/-- `prev_value` for a floating-point type (maths/numeric.hpp:35): toward
`std::numeric_limits<T>::min()`. -/
def prevFlt {F : Fmt} (x : Flt F) : Flt F := x.nextToward (Flt.min F)

/-- `std::min(a, b)`: `a` unless `b < a`. -/
def stdMin {α : Type} [LT α] [DecidableLT α] (a b : α) : α := if b < a then b else a

/-- `std::max(a, b)`: `a` unless `a < b`. -/
def stdMax {α : Type} [LT α] [DecidableLT α] (a b : α) : α := if a < b then b else a

/-- `min(first, others...)` (maths/numeric.hpp:43-54 and 56-67, which differ only in how arguments are
passed): the second argument and the rest of the pack are given separately because the pack is not
empty. -/
def vmin {α : Type} [LT α] [DecidableLT α] : α → α → List α → α
  | a, b, [] => stdMin a b
  | a, b, c :: cs => stdMin a (vmin b c cs)

/-- `max(first, others...)` (maths/numeric.hpp:69-80 and 82-93). -/
def vmax {α : Type} [LT α] [DecidableLT α] : α → α → List α → α
  | a, b, [] => stdMax a b
  | a, b, c :: cs => stdMax a (vmax b c cs)

/-- `minmax(left, right)` for types that are not plain data (maths/numeric.hpp:95-103). -/
def minmax2 {α : Type} [LE α] [DecidableLE α] (left right : α) : α × α :=
  if left ≤ right then (left, right) else (right, left)

/-- `minmax(values...)` (maths/numeric.hpp:105-113 and 115-123). -/
def vminmax {α : Type} [LT α] [DecidableLT α] (a b : α) (rest : List α) : α × α :=
  (vmin a b rest, vmax a b rest)

/-- Conversion of a rational to an integer type, discarding the fraction; undefined if the result does not fit
([conv.fpint]). -/
def truncTo (t : IntTy) (q : ℚ) : Outcome Int :=
  let v := Int.tdiv q.num q.den
  if t.holds v then .ok v else .ub

/-- Conversion of a `double` to an integer type ([conv.fpint]). -/
def truncFlt {F : Fmt} (t : IntTy) (x : Flt F) : Outcome Int :=
  if x.finite then truncTo t x.value else .ub

/-- `double`. -/
abbrev Double := Flt Fmt.double

/-- `interpolate(fraction, min, max)` for an integer type (maths/numeric.hpp:127-130).  `max - min` is a
value of the promoted type, converted to `double`; the sum is converted back to `Value_T`. -/
def interpolateInt (t : IntTy) (f : Double) (min max : Int) : Outcome Int := do
  let d ← t.sub max min
  let q ← truncFlt t (f.mul (Flt.ofInt _ d))
  let r ← t.add min q
  pure (t.wrap r)

/-- The same with exact arithmetic in place of `double` arithmetic. -/
def interpolateIntExact (t : IntTy) (f : ℚ) (min max : Int) : Outcome Int := do
  let d ← t.sub max min
  let q ← truncTo t (f * d)
  let r ← t.add min q
  pure (t.wrap r)

/-- `fraction(value, min, max)` for an integer type (maths/numeric.hpp:132-143).
`std::numeric_limits<Value_T>::signaling_NaN()` and `quiet_NaN()` are 0 for integers. -/
def fractionInt (t : IntTy) (value min max : Int) : Outcome Double := do
  if max = min then
    pure (Flt.ofInt _ 0)
  else
    let n ← t.sub value min
    let d ← t.sub max min
    pure ((Flt.ofInt _ n).div (Flt.ofInt _ d))

/-- `interpolate` for a floating-point type (maths/numeric.hpp:127-130): the difference in the type, the
product in `double`, the sum in the type again. -/
def interpolateFlt {F : Fmt} (f : Double) (min max : Flt F) : Flt F :=
  min.add ((f.mul ((max.sub min).convert Fmt.double)).convert F)

/-- `fraction` for a floating-point type (maths/numeric.hpp:132-143): the differences in the type, the
quotient in `double`.  The NaN of the debug configuration is a signalling one; NaNs are not told apart here. -/
def fractionFlt {F : Fmt} (value min max : Flt F) : Double :=
  if max == min then (Flt.qNaN F).convert Fmt.double
  else ((value.sub min).convert Fmt.double).div ((max.sub min).convert Fmt.double)

/-- `interpolate` for a floating-point type at least as wide as `double`, that is `long double` (maths/numeric.hpp:127-130): the
fraction is converted to the type and everything is computed in it. -/
def interpolateWide {F : Fmt} (f : Double) (min max : Flt F) : Flt F :=
  min.add ((f.convert F).mul (max.sub min))

/-- `fraction` for a floating-point type at least as wide as `double`, that is `long double` (maths/numeric.hpp:132-143): only the
first difference is converted to `double` (142), so the quotient is computed in the type and converted for the return. -/
def fractionWide {F : Fmt} (value min max : Flt F) : Double :=
  if max == min then (Flt.qNaN F).convert Fmt.double
  else ((((value.sub min).convert Fmt.double).convert F).div (max.sub min)).convert Fmt.double

/-- `interpolate` (maths/numeric.hpp:127-130) in exact arithmetic over a
field. -/
def interpolateReal {α : Type} [Add α] [Mul α] [Sub α] (f min max : α) : α := min + f * (max - min)

/-- `fraction` (maths/numeric.hpp:132-143) in exact arithmetic over a field;
`none` is NaN, which both configurations return (134-140). -/
def fractionReal {α : Type} [DecidableEq α] [Sub α] [Div α] (value min max : α) : Option α :=
  if max = min then none else some ((value - min) / (max - min))

end Wite.Maths
