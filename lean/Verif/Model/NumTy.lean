import Verif.Model.Numeric

/-!
# Conversions between number types

Shared vocabulary of the models of calls with arguments of another number type than the parameter.  No counterpart in
`/repo`; the rules are those of the C++20 standard for implicit conversions ([conv.integral], [conv.fpint], [conv.double]) with
IEEE 754 floating-point types.  `bool` is not covered.
-/

namespace Wite.Maths

open Wite

/-- A number type. -/
inductive NumTy where
  | int (t : IntTy)
  | flt (F : Fmt)

namespace NumTy

/-- The objects of the type; those of an integer type are the integers it can hold. -/
def Val : NumTy → Type
  | .int _ => Int
  | .flt F => Flt F

/-- That an object of the type can have this value. -/
def ok : (t : NumTy) → t.Val → Prop
  | .int t, v => 0 < t.bits ∧ t.holds v
  | .flt _, _ => True

/-- The number an integer stands for. -/
def ofInteger (v : Int) : Option ℚ := some v

/-- The number a floating-point object stands for. -/
def ofFlt {F : Fmt} (x : Flt F) : Option ℚ := if x.mag < Flt.infMag F then some x.value else none

/-- The number an object stands for; infinities and NaN stand for none. -/
def num : (t : NumTy) → t.Val → Option ℚ
  | .int _, v => ofInteger v
  | .flt F, x => ofFlt (F := F) x

/-- Implicit conversion. -/
def convert : (s t : NumTy) → s.Val → Outcome t.Val
  | .int _, .int t, v => .ok (t.wrap v)
  | .int _, .flt F, v => .ok (Flt.ofInt F v)
  | .flt F, .int t, x => truncFlt (F := F) t x
  | .flt F, .flt G, x => .ok (Flt.convert (F := F) G x)

/-- `==` of two integers of one type. -/
def sameInt (a b : Int) : Bool := decide (a = b)

/-- `==` of two floating-point objects of one type. -/
def sameFlt {F : Fmt} (a b : Flt F) : Bool := a == b

/-- `==` of two objects of the type. -/
def eqv : (t : NumTy) → t.Val → t.Val → Bool
  | .int _, a, b => sameInt a b
  | .flt F, a, b => sameFlt (F := F) a b

end NumTy

end Wite.Maths
