import Verif.Model.Outcome
import Mathlib.Data.Int.Basic

/-!
# Integer types

Shared vocabulary of the `maths` model: the integer types of C++20 and their arithmetic.  No
counterpart in `/repo`; the rules are those of the C++20 standard ([conv.prom], [conv.integral],
[expr.pre]) with a 32-bit `int`.  `bool` is not covered (its conversions are not modular).
-/

namespace Wite.Maths

open Wite

/-- An integer type: its width and whether it is signed. -/
structure IntTy where
  bits : Nat
  signed : Bool
  deriving DecidableEq, Repr

namespace IntTy

/-- `int`. -/
def int : IntTy := ⟨32, true⟩

/-- `std::numeric_limits<T>::min()`. -/
def minValue (t : IntTy) : Int := if t.signed then -2 ^ (t.bits - 1) else 0

/-- `std::numeric_limits<T>::max()`. -/
def maxValue (t : IntTy) : Int := if t.signed then 2 ^ (t.bits - 1) - 1 else 2 ^ t.bits - 1

/-- The values the type can hold. -/
def holds (t : IntTy) (v : Int) : Prop := t.minValue ≤ v ∧ v ≤ t.maxValue

instance (t : IntTy) (v : Int) : Decidable (t.holds v) := by unfold holds; infer_instance

/-- Conversion to the type: the value congruent modulo `2^bits` ([conv.integral]). -/
def wrap (t : IntTy) (v : Int) : Int :=
  (v - t.minValue) % 2 ^ t.bits + t.minValue

/-- Integral promotion: types narrower than `int` become `int` ([conv.prom]). -/
def promote (t : IntTy) : IntTy := if t.bits < int.bits then int else t

/-- The result of an arithmetic operation carried out in the type: overflow of a signed type is
undefined, unsigned types wrap ([expr.pre], [basic.fundamental]). -/
def result (t : IntTy) (v : Int) : Outcome Int :=
  if t.signed then
    if t.holds v then .ok v else .ub
  else .ok (t.wrap v)

/-- `a + b` for `a`, `b` of the type: a value of the promoted type. -/
def add (t : IntTy) (a b : Int) : Outcome Int := t.promote.result (a + b)

/-- `a - b` for `a`, `b` of the type: a value of the promoted type. -/
def sub (t : IntTy) (a b : Int) : Outcome Int := t.promote.result (a - b)

end IntTy

end Wite.Maths
