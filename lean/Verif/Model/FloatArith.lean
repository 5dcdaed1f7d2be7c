import Verif.Model.Float
import Mathlib.Data.Rat.Floor

/-!
# Floating-point arithmetic

IEEE 754 arithmetic on the formats of `Float.lean`: each operation computes the exact result and
rounds it to the nearest representable number, ties to the even one, with the usual treatment of
infinities, NaN and signed zeros.  Every NaN is the same quiet NaN here (payloads and signalling are
not modelled).  Shared vocabulary, no counterpart in `/repo`.
-/

namespace Wite.Maths.Flt

open Wite.Maths

variable {F G : Fmt}

/-- The magnitude of the largest representable number not above `r` (`0 ≤ r`), for an unbounded exponent:
in units of the smallest subnormal number, the leading `m + 1` bits. -/
def floorMag (F : Fmt) (r : ℚ) : Nat :=
  let n := ⌊r / 2 ^ (1 - bias F - F.m)⌋.toNat
  let k := Nat.log2 n - F.m
  k * 2 ^ F.m + n / 2 ^ k

/-- Rounding to nearest, ties to even (IEEE 754, 4.3.1), of `0 ≤ r`, for an unbounded exponent. -/
def roundMag (F : Fmt) (r : ℚ) : Nat :=
  let g := floorMag F r
  let mid := (magValue F g + magValue F (g + 1)) / 2
  if r < mid then g
  else if mid < r then g + 1
  else if g % 2 = 0 then g else g + 1

/-- Rounding of a number; results beyond the largest finite number become infinite.  `neg` is the sign of
an exact zero. -/
def ofRat (F : Fmt) (neg : Bool) (q : ℚ) : Flt F :=
  if q = 0 then ⟨neg, 0⟩
  else ⟨decide (q < 0), Nat.min (roundMag F |q|) (infMag F)⟩

/-- `-x`. -/
def negate (x : Flt F) : Flt F := ⟨!x.neg, x.mag⟩

/-- `x + y` (IEEE 754, 5.4.1, 6.1, 6.2, 6.3). -/
def add (x y : Flt F) : Flt F :=
  if x.isNaN ∨ y.isNaN then qNaN F
  else if ¬ x.finite then
    if ¬ y.finite ∧ x.neg ≠ y.neg then qNaN F else x
  else if ¬ y.finite then y
  else ofRat F (x.neg && y.neg) (x.value + y.value)

/-- `x - y`. -/
def sub (x y : Flt F) : Flt F := x.add y.negate

/-- `x * y`. -/
def mul (x y : Flt F) : Flt F :=
  let s := x.neg != y.neg
  if x.isNaN ∨ y.isNaN then qNaN F
  else if ¬ x.finite ∨ ¬ y.finite then
    if x.mag = 0 ∨ y.mag = 0 then qNaN F else ⟨s, infMag F⟩
  else ofRat F s (x.value * y.value)

/-- `x / y`. -/
def div (x y : Flt F) : Flt F :=
  let s := x.neg != y.neg
  if x.isNaN ∨ y.isNaN then qNaN F
  else if ¬ x.finite then
    if ¬ y.finite then qNaN F else ⟨s, infMag F⟩
  else if ¬ y.finite then ⟨s, 0⟩
  else if y.mag = 0 then
    if x.mag = 0 then qNaN F else ⟨s, infMag F⟩
  else ofRat F s (x.value / y.value)

/-- Conversion to another format. -/
def convert (G : Fmt) (x : Flt F) : Flt G :=
  if x.isNaN then qNaN G
  else if ¬ x.finite then ⟨x.neg, infMag G⟩
  else ofRat G x.neg x.value

/-- Conversion of an integer. -/
def ofInt (F : Fmt) (n : Int) : Flt F := ofRat F false n

end Wite.Maths.Flt
