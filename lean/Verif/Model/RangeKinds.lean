import Verif.Model.ValueRange

/-!
# Model of `envelope` in `wite/maths/value_range.hpp` for ranges with bounds of different kinds

The ranges have one value type: with several, `std::min` does not compile.
-/

namespace Wite.Maths

open Wite

/-- A `value_range` with any kinds of bounds: its template arguments and its members (maths/value_range.hpp:51-52, 137-138). -/
structure AnyRange (α : Type) where
  lb : Boundary
  hb : Boundary
  range : ValueRange α lb hb

namespace AnyRange

variable {α : Type}

/-- `contains(val)` (maths/value_range.hpp:108). -/
def contains [LT α] [DecidableLT α] [LE α] [DecidableLE α] (r : AnyRange α) (x : α) : Bool := r.range.contains x

/-- `min(left, others...)` (maths/value_range.hpp:162-170): only the members are used. -/
def vmin [LT α] [DecidableLT α] : AnyRange α → AnyRange α → List (AnyRange α) → α
  | r, s, [] => stdMin r.range.lo s.range.lo
  | r, s, u :: us => stdMin r.range.lo (vmin s u us)

/-- `max(left, others...)` (maths/value_range.hpp:174-182). -/
def vmax [LT α] [DecidableLT α] : AnyRange α → AnyRange α → List (AnyRange α) → α
  | r, s, [] => stdMax r.range.hi s.range.hi
  | r, s, u :: us => stdMax r.range.hi (vmax s u us)

/-- `envelope(ranges...)` (maths/value_range.hpp:199-203).  The result is of the type `common_type_t` of the arguments, which is
the first type (common/concepts.hpp:99-108). -/
def envelope [LT α] [DecidableLT α] [LE α] [DecidableLE α] (b : Build) (r s : AnyRange α) (rest : List (AnyRange α)) : Outcome (AnyRange α) :=
  noexcept do
    let e ← ValueRange.make b (vmin r s rest) (vmax r s rest)
    pure ⟨r.lb, r.hb, e⟩

end AnyRange

/-- The type of an expression: a class, with or without a member `value_type`, or a reference to a type. -/
inductive ExprTy where
  | cls (hasValueType : Bool)
  | ref (t : ExprTy)
  deriving DecidableEq, Repr

/-- What a parameter `T&&` of a function template makes of `T` ([temp.deduct.call]): a reference for a variable, the type itself
for a temporary. -/
def ExprTy.deduce (t : ExprTy) (named : Bool) : ExprTy := if named then .ref t else t

/-- Whether `typename T::value_type` is a type. -/
def ExprTy.hasMember : ExprTy → Bool
  | .cls h => h
  | .ref _ => false

/-- Whether `envelope(values)` of one container compiles (maths/value_range.hpp:193-197 and 205-209): the return type mentions
`typename Range_T::value_type`; the other two functions take two arguments or more. -/
def envelopeAccepts (t : ExprTy) (named : Bool) : Bool := (t.deduce named).hasMember

end Wite.Maths
