import Verif.Model.ValueRange
import Verif.Model.NumTy

/-!
# Model of `wite/maths/value_range.hpp`: arguments of other types

Calls of the members of a `value_range` of a number type with numbers of another type, and `envelope` of ranges whose bounds
are of different kinds.
-/

namespace Wite.Maths

open Wite

/-- `<` of two integers of one type. -/
def NumTy.lessInt (a b : Int) : Bool := decide (a < b)

/-- `<` of two floating-point objects of one type. -/
def NumTy.lessFlt {F : Fmt} (a b : Flt F) : Bool := decide (a < b)

/-- `<=` of two integers of one type. -/
def NumTy.leqInt (a b : Int) : Bool := decide (a ≤ b)

/-- `<=` of two floating-point objects of one type. -/
def NumTy.leqFlt {F : Fmt} (a b : Flt F) : Bool := decide (a ≤ b)

/-- `<` of two objects of a number type. -/
def NumTy.less : (t : NumTy) → t.Val → t.Val → Bool
  | .int _, a, b => NumTy.lessInt a b
  | .flt F, a, b => NumTy.lessFlt (F := F) a b

/-- `<=` of two objects of a number type. -/
def NumTy.leq : (t : NumTy) → t.Val → t.Val → Bool
  | .int _, a, b => NumTy.leqInt a b
  | .flt F, a, b => NumTy.leqFlt (F := F) a b

instance (t : NumTy) : LT t.Val := ⟨fun a b => t.less a b = true⟩
instance (t : NumTy) : LE t.Val := ⟨fun a b => t.leq a b = true⟩
instance (t : NumTy) : DecidableLT t.Val := fun a b => inferInstanceAs (Decidable (t.less a b = true))
instance (t : NumTy) : DecidableLE t.Val := fun a b => inferInstanceAs (Decidable (t.leq a b = true))

namespace RangeCalls

variable {lb hb : Boundary}

/-- `value_range<t>(min, max)`, in parentheses, with numbers of other types (maths/value_range.hpp:55-57). -/
def makeArg (b : Build) (s₁ s₂ t : NumTy) (min : s₁.Val) (max : s₂.Val) : Outcome (ValueRange t.Val lb hb) := do
  let x ← s₁.convert t min
  let y ← s₂.convert t max
  ValueRange.make b x y

/-- `contains(x)` (maths/value_range.hpp:108): the parameter is the converted argument. -/
def containsArg (s t : NumTy) (r : ValueRange t.Val lb hb) (x : s.Val) : Outcome Bool := do
  let v ← s.convert t x
  pure (r.contains v)

/-- `below_min(x)` (maths/value_range.hpp:110-116). -/
def belowMinArg (s t : NumTy) (r : ValueRange t.Val lb hb) (x : s.Val) : Outcome Bool := do
  let v ← s.convert t x
  pure (r.belowMin v)

/-- `above_max(x)` (maths/value_range.hpp:118-124). -/
def aboveMaxArg (s t : NumTy) (r : ValueRange t.Val lb hb) (x : s.Val) : Outcome Bool := do
  let v ← s.convert t x
  pure (r.aboveMax v)

/-- `clamp(x)` (maths/value_range.hpp:128). -/
def clampArg (s t : NumTy) (r : ValueRange t.Val lb hb) (x : s.Val) : Outcome t.Val := do
  let v ← s.convert t x
  r.clamp v

/-- `min(x)` (maths/value_range.hpp:70-77): the parameter is the converted argument. -/
def setMinArg (s t : NumTy) (next : t.Val → Outcome t.Val) (b : Build) (x : s.Val) : St (ValueRange t.Val lb hb) PUnit := do
  let v ← St.lift (s.convert t x)
  ValueRange.setMin next b v

/-- `max(x)` (maths/value_range.hpp:80-87). -/
def setMaxArg (s t : NumTy) (prev : t.Val → Outcome t.Val) (b : Build) (x : s.Val) : St (ValueRange t.Val lb hb) PUnit := do
  let v ← St.lift (s.convert t x)
  ValueRange.setMax prev b v

end RangeCalls

end Wite.Maths
