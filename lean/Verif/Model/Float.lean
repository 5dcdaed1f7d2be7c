import Verif.Model.Outcome
import Mathlib.Data.Rat.Defs
import Mathlib.Algebra.Order.Field.Rat

/-!
# Floating-point types

Shared vocabulary of the `maths` model: IEEE 754 binary formats with `e` exponent and `m`
fraction bits (`float` is 8 and 23, `double` 11 and 52).  An object is its sign bit and the
remaining `e + m` bits read as a number, its *magnitude*.  The extended format of x87 has an
explicit leading bit; its values are those of the format with `e = 15`, `m = 63`.
-/

namespace Wite.Maths

/-- A binary format. -/
structure Fmt where
  e : Nat
  m : Nat
  he : 2 ≤ e
  hm : 1 ≤ m

/-- `float`. -/
def Fmt.single : Fmt := ⟨8, 23, by decide, by decide⟩

/-- `double`. -/
def Fmt.double : Fmt := ⟨11, 52, by decide, by decide⟩

/-- `long double` on x86: the values of the extended format. -/
def Fmt.extended : Fmt := ⟨15, 63, by decide, by decide⟩

/-- `long double` where it is IEEE 754 binary128. -/
def Fmt.quad : Fmt := ⟨15, 112, by decide, by decide⟩

/-- A small format with 3 exponent and 2 fraction bits, for examples. -/
def Fmt.tiny : Fmt := ⟨3, 2, by decide, by decide⟩

/-- A floating-point object: sign bit and magnitude bits. -/
structure Flt (F : Fmt) where
  neg : Bool
  mag : Nat
  deriving DecidableEq, Repr

namespace Flt

variable {F : Fmt}

/-- The magnitude of infinity: all exponent bits set, fraction zero. -/
def infMag (F : Fmt) : Nat := (2 ^ F.e - 1) * 2 ^ F.m

/-- `std::isfinite`. -/
def finite (x : Flt F) : Prop := x.mag < infMag F

/-- `std::isnan`. -/
def isNaN (x : Flt F) : Prop := infMag F < x.mag

instance (x : Flt F) : Decidable x.finite := by unfold finite; infer_instance
instance (x : Flt F) : Decidable x.isNaN := by unfold isNaN; infer_instance

/-- The position of a number (not NaN) on the line of representable numbers; both zeros are at 0. -/
def key (x : Flt F) : Int := if x.neg then -(x.mag : Int) else x.mag

/-- `x < y`: false if one of them is NaN. -/
instance : LT (Flt F) := ⟨fun x y => ¬ x.isNaN ∧ ¬ y.isNaN ∧ x.key < y.key⟩

/-- `x <= y`: false if one of them is NaN. -/
instance : LE (Flt F) := ⟨fun x y => ¬ x.isNaN ∧ ¬ y.isNaN ∧ x.key ≤ y.key⟩

instance (x y : Flt F) : Decidable (x < y) :=
  inferInstanceAs (Decidable (¬ x.isNaN ∧ ¬ y.isNaN ∧ x.key < y.key))
instance (x y : Flt F) : Decidable (x ≤ y) :=
  inferInstanceAs (Decidable (¬ x.isNaN ∧ ¬ y.isNaN ∧ x.key ≤ y.key))

/-- `x == y`: false if one of them is NaN; the zeros are equal. -/
instance : BEq (Flt F) := ⟨fun x y => decide (¬ x.isNaN ∧ ¬ y.isNaN ∧ x.key = y.key)⟩

/-- `std::numeric_limits<T>::max()`: the largest finite number. -/
def max (F : Fmt) : Flt F := ⟨false, infMag F - 1⟩

/-- `std::numeric_limits<T>::min()`: the smallest positive *normal* number. -/
def min (F : Fmt) : Flt F := ⟨false, 2 ^ F.m⟩

/-- `std::numeric_limits<T>::quiet_NaN()`. -/
def qNaN (F : Fmt) : Flt F := ⟨false, infMag F + 2 ^ (F.m - 1)⟩

/-- The exponent bias of the format. -/
def bias (F : Fmt) : Int := 2 ^ (F.e - 1) - 1

/-- The value of a finite magnitude, by the formula of IEEE 754: with biased exponent `E` and
fraction `f`, subnormal numbers (`E = 0`) are `f * 2^(1 - bias - m)`, normal ones
`(2^m + f) * 2^(E - bias - m)`. -/
def magValue (F : Fmt) (mag : Nat) : ℚ :=
  let E := mag / 2 ^ F.m
  let f := mag % 2 ^ F.m
  if E = 0 then f * 2 ^ (1 - bias F - F.m) else (2 ^ F.m + f) * 2 ^ ((E : Int) - bias F - F.m)

/-- The number a finite object stands for. -/
def value (x : Flt F) : ℚ := if x.neg then -magValue F x.mag else magValue F x.mag

/-- `std::nexttoward(x, y)` (C17 7.12.11.3, 7.12.11.4): NaN if an argument is; `y` if they are
equal; otherwise the next representable number in the direction of `y`.  The second parameter is a
`long double` in C++; every caller passes a number of the format of `x`, so it is taken in that
format here. -/
def nextToward (x y : Flt F) : Flt F :=
  if x.isNaN ∨ y.isNaN then qNaN F
  else if x.key = y.key then y
  else if x.mag = 0 then ⟨decide (y.key < 0), 1⟩
  else if x.key < y.key then
    if x.neg then ⟨true, x.mag - 1⟩ else ⟨false, x.mag + 1⟩
  else
    if x.neg then ⟨true, x.mag + 1⟩ else ⟨false, x.mag - 1⟩

end Flt

end Wite.Maths
