import Verif.Model.Join
import Verif.Model.Result

/-!
# Model of `wite/binascii/hexlify.hpp`

Characters are natural numbers (unsigned code unit values).  This file has the narrow overloads; the wide ones
are in `HexlifyWide.lean`.  A fixed-size object of
type `T` is the list of its `sizeof(T)` bytes in memory order.
-/

namespace Wite.Hex

/-- `valid_hex_chars` (binascii/hexlify.hpp:29). -/
def validHexChars : List Nat :=
  ['0'.toNat, '1'.toNat, '2'.toNat, '3'.toNat, '4'.toNat, '5'.toNat, '6'.toNat, '7'.toNat, '8'.toNat, '9'.toNat,
   'A'.toNat, 'B'.toNat, 'C'.toNat, 'D'.toNat, 'E'.toNat, 'F'.toNat,
   'a'.toNat, 'b'.toNat, 'c'.toNat, 'd'.toNat, 'e'.toNat, 'f'.toNat]

/-- `is_all_valid_hex_chars` (binascii/hexlify.hpp:32-39):
`npos == str.find_first_not_of(valid)`. -/
def isAllValidHexChars (str : List Nat) : Bool := str.all (fun c => validHexChars.contains c)

/-- `enum class error` (binascii/hexlify.hpp:41). -/
inductive Error where
  | invalidSequenceLength
  | invalidHexChar
  deriving DecidableEq, Repr

/-- `detail::upper_case_bytes` (binascii/hexlify.hpp:53-70), all 256 entries as written. -/
def upperCaseBytes : List (Char × Char) := [
  ('0', '0'), ('0', '1'), ('0', '2'), ('0', '3'), ('0', '4'), ('0', '5'), ('0', '6'), ('0', '7'), ('0', '8'), ('0', '9'), ('0', 'A'), ('0', 'B'), ('0', 'C'), ('0', 'D'), ('0', 'E'), ('0', 'F'),
  ('1', '0'), ('1', '1'), ('1', '2'), ('1', '3'), ('1', '4'), ('1', '5'), ('1', '6'), ('1', '7'), ('1', '8'), ('1', '9'), ('1', 'A'), ('1', 'B'), ('1', 'C'), ('1', 'D'), ('1', 'E'), ('1', 'F'),
  ('2', '0'), ('2', '1'), ('2', '2'), ('2', '3'), ('2', '4'), ('2', '5'), ('2', '6'), ('2', '7'), ('2', '8'), ('2', '9'), ('2', 'A'), ('2', 'B'), ('2', 'C'), ('2', 'D'), ('2', 'E'), ('2', 'F'),
  ('3', '0'), ('3', '1'), ('3', '2'), ('3', '3'), ('3', '4'), ('3', '5'), ('3', '6'), ('3', '7'), ('3', '8'), ('3', '9'), ('3', 'A'), ('3', 'B'), ('3', 'C'), ('3', 'D'), ('3', 'E'), ('3', 'F'),
  ('4', '0'), ('4', '1'), ('4', '2'), ('4', '3'), ('4', '4'), ('4', '5'), ('4', '6'), ('4', '7'), ('4', '8'), ('4', '9'), ('4', 'A'), ('4', 'B'), ('4', 'C'), ('4', 'D'), ('4', 'E'), ('4', 'F'),
  ('5', '0'), ('5', '1'), ('5', '2'), ('5', '3'), ('5', '4'), ('5', '5'), ('5', '6'), ('5', '7'), ('5', '8'), ('5', '9'), ('5', 'A'), ('5', 'B'), ('5', 'C'), ('5', 'D'), ('5', 'E'), ('5', 'F'),
  ('6', '0'), ('6', '1'), ('6', '2'), ('6', '3'), ('6', '4'), ('6', '5'), ('6', '6'), ('6', '7'), ('6', '8'), ('6', '9'), ('6', 'A'), ('6', 'B'), ('6', 'C'), ('6', 'D'), ('6', 'E'), ('6', 'F'),
  ('7', '0'), ('7', '1'), ('7', '2'), ('7', '3'), ('7', '4'), ('7', '5'), ('7', '6'), ('7', '7'), ('7', '8'), ('7', '9'), ('7', 'A'), ('7', 'B'), ('7', 'C'), ('7', 'D'), ('7', 'E'), ('7', 'F'),
  ('8', '0'), ('8', '1'), ('8', '2'), ('8', '3'), ('8', '4'), ('8', '5'), ('8', '6'), ('8', '7'), ('8', '8'), ('8', '9'), ('8', 'A'), ('8', 'B'), ('8', 'C'), ('8', 'D'), ('8', 'E'), ('8', 'F'),
  ('9', '0'), ('9', '1'), ('9', '2'), ('9', '3'), ('9', '4'), ('9', '5'), ('9', '6'), ('9', '7'), ('9', '8'), ('9', '9'), ('9', 'A'), ('9', 'B'), ('9', 'C'), ('9', 'D'), ('9', 'E'), ('9', 'F'),
  ('A', '0'), ('A', '1'), ('A', '2'), ('A', '3'), ('A', '4'), ('A', '5'), ('A', '6'), ('A', '7'), ('A', '8'), ('A', '9'), ('A', 'A'), ('A', 'B'), ('A', 'C'), ('A', 'D'), ('A', 'E'), ('A', 'F'),
  ('B', '0'), ('B', '1'), ('B', '2'), ('B', '3'), ('B', '4'), ('B', '5'), ('B', '6'), ('B', '7'), ('B', '8'), ('B', '9'), ('B', 'A'), ('B', 'B'), ('B', 'C'), ('B', 'D'), ('B', 'E'), ('B', 'F'),
  ('C', '0'), ('C', '1'), ('C', '2'), ('C', '3'), ('C', '4'), ('C', '5'), ('C', '6'), ('C', '7'), ('C', '8'), ('C', '9'), ('C', 'A'), ('C', 'B'), ('C', 'C'), ('C', 'D'), ('C', 'E'), ('C', 'F'),
  ('D', '0'), ('D', '1'), ('D', '2'), ('D', '3'), ('D', '4'), ('D', '5'), ('D', '6'), ('D', '7'), ('D', '8'), ('D', '9'), ('D', 'A'), ('D', 'B'), ('D', 'C'), ('D', 'D'), ('D', 'E'), ('D', 'F'),
  ('E', '0'), ('E', '1'), ('E', '2'), ('E', '3'), ('E', '4'), ('E', '5'), ('E', '6'), ('E', '7'), ('E', '8'), ('E', '9'), ('E', 'A'), ('E', 'B'), ('E', 'C'), ('E', 'D'), ('E', 'E'), ('E', 'F'),
  ('F', '0'), ('F', '1'), ('F', '2'), ('F', '3'), ('F', '4'), ('F', '5'), ('F', '6'), ('F', '7'), ('F', '8'), ('F', '9'), ('F', 'A'), ('F', 'B'), ('F', 'C'), ('F', 'D'), ('F', 'E'), ('F', 'F')]

/-- `detail::low_nibble` (binascii/hexlify.hpp:102-145).
Code units are natural numbers; `48` is `'0'`, `65` is `'A'`, `97` is `'a'`. -/
def lowNibble (c : Nat) : Nat :=
  match c with
  | 48 => 0x00  -- '0'
  | 49 => 0x01  -- '1'
  | 50 => 0x02  -- '2'
  | 51 => 0x03  -- '3'
  | 52 => 0x04  -- '4'
  | 53 => 0x05  -- '5'
  | 54 => 0x06  -- '6'
  | 55 => 0x07  -- '7'
  | 56 => 0x08  -- '8'
  | 57 => 0x09  -- '9'
  | 65 => 0x0A  -- 'A'
  | 97 => 0x0A  -- 'a'
  | 66 => 0x0B  -- 'B'
  | 98 => 0x0B  -- 'b'
  | 67 => 0x0C  -- 'C'
  | 99 => 0x0C  -- 'c'
  | 68 => 0x0D  -- 'D'
  | 100 => 0x0D  -- 'd'
  | 69 => 0x0E  -- 'E'
  | 101 => 0x0E  -- 'e'
  | 70 => 0x0F  -- 'F'
  | 102 => 0x0F  -- 'f'
  | _ => 0xFF  -- _invalid_nibble, hexlify.hpp:98

/-- `detail::high_nibble` (binascii/hexlify.hpp:196-239).
Code units are natural numbers; `48` is `'0'`, `65` is `'A'`, `97` is `'a'`. -/
def highNibble (c : Nat) : Nat :=
  match c with
  | 48 => 0x00  -- '0'
  | 49 => 0x10  -- '1'
  | 50 => 0x20  -- '2'
  | 51 => 0x30  -- '3'
  | 52 => 0x40  -- '4'
  | 53 => 0x50  -- '5'
  | 54 => 0x60  -- '6'
  | 55 => 0x70  -- '7'
  | 56 => 0x80  -- '8'
  | 57 => 0x90  -- '9'
  | 65 => 0xA0  -- 'A'
  | 97 => 0xA0  -- 'a'
  | 66 => 0xB0  -- 'B'
  | 98 => 0xB0  -- 'b'
  | 67 => 0xC0  -- 'C'
  | 99 => 0xC0  -- 'c'
  | 68 => 0xD0  -- 'D'
  | 100 => 0xD0  -- 'd'
  | 69 => 0xE0  -- 'E'
  | 101 => 0xE0  -- 'e'
  | 70 => 0xF0  -- 'F'
  | 102 => 0xF0  -- 'f'
  | _ => 0xFF  -- _invalid_nibble, hexlify.hpp:98

/-- `unsafe_from_hex_chars` (binascii/hexlify.hpp:294-307): `n` is `sizeof(Result_T)`.
Reads two characters per byte; reading past the end of the view is undefined behaviour. -/
def unsafeFromHexChars : (n : Nat) → (str : List Nat) → Outcome (List Nat)
  | 0, _ => .ok []
  | n + 1, c1 :: c2 :: rest => do
    let tail ← unsafeFromHexChars n rest
    pure ((highNibble c1 ||| lowNibble c2) % 256 :: tail)
  | _ + 1, _ => .ub

/-- `from_hex_chars` (binascii/hexlify.hpp:312-323). -/
def fromHexChars (n : Nat) (str : List Nat) : Outcome (List Nat) :=
  if str.length ≠ 2 * n then .throw (.invalidArgument "Invalid sequence length for type")
  else if !isAllValidHexChars str then .throw (.invalidArgument "Invalid hex char")
  else unsafeFromHexChars n str

/-- `try_from_hex_chars` (binascii/hexlify.hpp:341-352). -/
def tryFromHexChars (n : Nat) (str : List Nat) : Outcome (Result (List Nat) Error) :=
  if str.length ≠ 2 * n then .ok (.error .invalidSequenceLength)
  else if !isAllValidHexChars str then .ok (.error .invalidHexChar)
  else Result.value <$> unsafeFromHexChars n str

/-- The loop of `hexlify` (binascii/hexlify.hpp:375-382): two table characters are written
per byte.  An index outside the table is undefined behaviour. -/
def hexlifyLoop : List Nat × Nat → List Nat → Outcome (List Nat × Nat)
  | st, [] => .ok st
  | st, b :: bs =>
    match upperCaseBytes[b]? with
    | none => .ub
    | some chars => do
      let st1 ← Join.writeOne st chars.1.toNat
      let st2 ← Join.writeOne st1 chars.2.toNat
      hexlifyLoop st2 bs

/-- `hexlify` (binascii/hexlify.hpp:370-385).  `bytes` are the values of the range's
elements converted to `io::byte`. -/
def hexlify (bytes : List Nat) : Outcome (List Nat) := do
  let st ← hexlifyLoop (List.replicate (2 * bytes.length) 0, 0) bytes
  pure st.1

/-- The loop of the dynamic `unhexlify` (binascii/hexlify.hpp:395-398): `k` bytes remain
to be produced. -/
def unhexlifyLoop : (k : Nat) → (str : List Nat) → Outcome (List Nat)
  | 0, _ => .ok []
  | k + 1, c1 :: c2 :: rest => do
    let b ← fromHexChars 1 [c1, c2]
    let tail ← unhexlifyLoop k rest
    pure (b ++ tail)
  | _ + 1, _ => .ub

/-- The dynamic `unhexlify` (binascii/hexlify.hpp:391-401). -/
def unhexlify (str : List Nat) : Outcome (List Nat) := unhexlifyLoop (str.length / 2) str

/-- `unsafe_unhexlify<N>` (binascii/hexlify.hpp:418-429). -/
def unsafeUnhexlifyN : (n : Nat) → (str : List Nat) → Outcome (List Nat)
  | 0, _ => .ok []
  | n + 1, c1 :: c2 :: rest => do
    let b ← unsafeFromHexChars 1 [c1, c2]
    let tail ← unsafeUnhexlifyN n rest
    pure (b ++ tail)
  | _ + 1, _ => .ub

/-- `unhexlify<N>` (binascii/hexlify.hpp:449-461). -/
def unhexlifyN (n : Nat) (str : List Nat) : Outcome (List Nat) :=
  if str.length ≠ 2 * n then .throw (.invalidArgument "Invalid sequence length")
  else if !isAllValidHexChars str then .throw (.invalidArgument "Invalid hex char")
  else unsafeUnhexlifyN n str

/-- `try_unhexlify<N>` (binascii/hexlify.hpp:480-492). -/
def tryUnhexlifyN (n : Nat) (str : List Nat) : Outcome (Result (List Nat) Error) :=
  if str.length ≠ 2 * n then .ok (.error .invalidSequenceLength)
  else if !isAllValidHexChars str then .ok (.error .invalidHexChar)
  else Result.value <$> unsafeUnhexlifyN n str

/-- `io::to_integer<Result_T>(value)` (io/types.hpp:26-46) for a byte-like value: `v` is
the mathematical value of the byte object (negative for a signed byte type), `rbits` the
width of the unsigned result type.  `numeric_limits<make_unsigned_t<..>>::max()` is 255;
the final sum is reduced to the result type. -/
def toInteger (rbits : Nat) (v : Int) : Nat :=
  if 0 ≤ v then (v % 2 ^ rbits).toNat
  else (((v % 2 ^ rbits) + 255 + 1) % 2 ^ rbits).toNat

end Wite.Hex
