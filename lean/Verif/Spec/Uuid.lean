import Verif.Spec.Hex

/-!
# Specification of UUIDs and their text

A UUID is 16 bytes.  Its text shows the fields: a 32-bit and two 16-bit numbers stored
little-endian, then eight bytes.
-/

namespace Wite.Spec.Uuid

open Wite.Spec

/-- A UUID value: 16 bytes. -/
def IsUuid (u : List Nat) : Prop := u.length = 16 ∧ ∀ b ∈ u, b < 256

/-- A digit of the wanted case. -/
def digit (upper : Bool) (v : Nat) : Nat := if upper then upperDigit v else lowerDigit v

/-- Exactly `n` hexadecimal digits of `v`, most significant first. -/
def fixed (upper : Bool) : (n : Nat) → (v : Nat) → List Nat
  | 0, _ => []
  | n + 1, v => fixed upper n (v / 16) ++ [digit upper (v % 16)]

/-- First field: bytes 0-3, little-endian. -/
def data1 (u : List Nat) : Nat := leValue (u.take 4)
/-- Second field: bytes 4-5. -/
def data2 (u : List Nat) : Nat := leValue ((u.drop 4).take 2)
/-- Third field: bytes 6-7. -/
def data3 (u : List Nat) : Nat := leValue ((u.drop 6).take 2)
/-- The last eight bytes. -/
def data4 (u : List Nat) : List Nat := u.drop 8

/-- Two digits per byte. -/
def pairs (upper : Bool) (bs : List Nat) : List Nat := bs.flatMap (fixed upper 2)

/-- The five layouts. -/
inductive Layout where
  | N | D | B | P | X
  deriving DecidableEq, Repr

/-- 8-4-4-4-12 with dashes. -/
def dashed (upper : Bool) (d1 d2 d3 : Nat) (d4 : List Nat) : List Nat :=
  fixed upper 8 d1 ++ [45] ++ fixed upper 4 d2 ++ [45] ++ fixed upper 4 d3 ++ [45] ++
    pairs upper (d4.take 2) ++ [45] ++ pairs upper (d4.drop 2)

/-- The documented text of the fields in a layout. -/
def fieldText (l : Layout) (upper : Bool) (d1 d2 d3 : Nat) (d4 : List Nat) : List Nat :=
  match l with
  | .N => fixed upper 8 d1 ++ fixed upper 4 d2 ++ fixed upper 4 d3 ++ pairs upper d4
  | .D => dashed upper d1 d2 d3 d4
  | .B => [123] ++ dashed upper d1 d2 d3 d4 ++ [125]
  | .P => [40] ++ dashed upper d1 d2 d3 d4 ++ [41]
  | .X => [123, 48, 120] ++ fixed upper 8 d1 ++ [44, 48, 120] ++ fixed upper 4 d2 ++ [44, 48, 120] ++
      fixed upper 4 d3 ++ [44, 123] ++
      List.intercalate [44] (d4.map (fun b => [48, 120] ++ fixed upper 2 b)) ++ [125, 125]

/-- The documented text of a UUID. -/
def text (l : Layout) (upper : Bool) (u : List Nat) : List Nat :=
  fieldText l upper (data1 u) (data2 u) (data3 u) (data4 u)

/-- The length of the text. -/
def textLength : Layout → Nat
  | .N => 32 | .D => 36 | .B => 38 | .P => 38 | .X => 68

/-- The format letter of a layout and case. -/
def letter : Layout → Bool → Char
  | .N, true => 'N' | .N, false => 'n'
  | .D, true => 'D' | .D, false => 'd'
  | .B, true => 'B' | .B, false => 'b'
  | .P, true => 'P' | .P, false => 'p'
  | .X, true => 'X' | .X, false => 'x'

/-- The shape of a layout: `none` where a hexadecimal digit of either case must stand, `some
c` where the character `c` must. (Used for N, D, B and P; `shape .X` describes the X text.) -/
def shape : Layout → List (Option Nat)
  | .N => List.replicate 32 none
  | .D => dashes
  | .B => [some 123] ++ dashes ++ [some 125]
  | .P => [some 40] ++ dashes ++ [some 41]
  | .X => [some 123] ++ pre ++ List.replicate 8 none ++ [some 44] ++ pre ++ List.replicate 4 none ++
      [some 44] ++ pre ++ List.replicate 4 none ++ [some 44, some 123] ++
      List.intercalate [some 44] (List.replicate 8 (pre ++ [none, none])) ++ [some 125, some 125]
where
  /-- 8-4-4-4-12 -/
  dashes : List (Option Nat) :=
    List.replicate 8 none ++ [some 45] ++ List.replicate 4 none ++ [some 45] ++
      List.replicate 4 none ++ [some 45] ++ List.replicate 4 none ++ [some 45] ++ List.replicate 12 none
  /-- "0x" -/
  pre : List (Option Nat) := [some 48, some 120]

/-- A string has a shape. -/
def HasShape : List (Option Nat) → List Nat → Prop
  | [], [] => True
  | none :: ps, c :: cs => IsHexDigit c ∧ HasShape ps cs
  | some q :: ps, c :: cs => c = q ∧ HasShape ps cs
  | _, _ => False

/-- The digits standing at the digit positions of a shape. -/
def digitsAt : List (Option Nat) → List Nat → List Nat
  | none :: ps, c :: cs => c :: digitsAt ps cs
  | some _ :: ps, _ :: cs => digitsAt ps cs
  | _, _ => []

/-- The number a string of hexadecimal digits denotes. -/
def hexNumber (s : List Nat) : Nat := s.foldl (fun acc c => 16 * acc + (hexVal c).getD 0) 0

/-- The UUID whose 32 hexadecimal digits are given: 8, 4 and 4 digits for the three numbers,
two for each of the eight bytes. -/
def ofDigits (ds : List Nat) : List Nat :=
  leBytes 4 (hexNumber (ds.take 8)) ++ leBytes 2 (hexNumber ((ds.drop 8).take 4)) ++
    leBytes 2 (hexNumber ((ds.drop 12).take 4)) ++
    (List.range 8).map (fun i => hexNumber ((ds.drop (16 + 2 * i)).take 2))

end Wite.Spec.Uuid
