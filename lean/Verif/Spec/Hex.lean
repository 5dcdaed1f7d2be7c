/-!
# Specification of hexadecimal text

Characters are code unit values: `'0'..'9'` = 48..57, `'A'..'F'` = 65..70,
`'a'..'f'` = 97..102.
-/

namespace Wite.Spec

/-- The value of a hexadecimal digit of either case. -/
def hexVal (c : Nat) : Option Nat :=
  if 48 ≤ c ∧ c ≤ 57 then some (c - 48)
  else if 65 ≤ c ∧ c ≤ 70 then some (c - 55)
  else if 97 ≤ c ∧ c ≤ 102 then some (c - 87)
  else none

/-- `c` is a hexadecimal digit of either case. -/
def IsHexDigit (c : Nat) : Prop :=
  (48 ≤ c ∧ c ≤ 57) ∨ (65 ≤ c ∧ c ≤ 70) ∨ (97 ≤ c ∧ c ≤ 102)

instance (c : Nat) : Decidable (IsHexDigit c) := by unfold IsHexDigit; infer_instance

/-- The bytes denoted by a string of digit pairs, high digit first; `none` unless the
string consists of an even number of hexadecimal digits. -/
def denote : List Nat → Option (List Nat)
  | [] => some []
  | [_] => none
  | c1 :: c2 :: rest =>
    match hexVal c1, hexVal c2, denote rest with
    | some h, some l, some t => some ((16 * h + l) :: t)
    | _, _, _ => none

/-- The upper-case digit of a value below 16. -/
def upperDigit (v : Nat) : Nat := if v < 10 then 48 + v else 55 + v

/-- The lower-case digit of a value below 16. -/
def lowerDigit (v : Nat) : Nat := if v < 10 then 48 + v else 87 + v

/-- Two upper-case digits per byte. -/
def hexText (bytes : List Nat) : List Nat :=
  bytes.flatMap (fun b => [upperDigit (b / 16), upperDigit (b % 16)])

/-- ASCII upper-casing. -/
def toUpper (c : Nat) : Nat := if 97 ≤ c ∧ c ≤ 122 then c - 32 else c

/-- Little-endian base-256 digits of `v`, `n` of them. -/
def leBytes : (n : Nat) → (v : Nat) → List Nat
  | 0, _ => []
  | n + 1, v => v % 256 :: leBytes n (v / 256)

/-- Big-endian base-256 digits. -/
def beBytes (n v : Nat) : List Nat := (leBytes n v).reverse

/-- The number whose little-endian base-256 digits are given. -/
def leValue : List Nat → Nat
  | [] => 0
  | b :: bs => b + 256 * leValue bs

/-- The number whose big-endian base-256 digits are given. -/
def beValue (bs : List Nat) : Nat := leValue bs.reverse

end Wite.Spec
