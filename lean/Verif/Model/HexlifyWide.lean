import Verif.Model.Hexlify

/-!
# The wide overloads of `wite/binascii/hexlify.hpp`

`wchar_t` text is a list of code units, not limited to 255.  The wide overloads have bodies, tables and constants of
their own in the source, modelled here as written there.
-/

namespace Wite.Hex

/-- `valid_hex_wchars` (binascii/hexlify.hpp:30). -/
def validHexWchars : List Nat :=
  ['0'.toNat, '1'.toNat, '2'.toNat, '3'.toNat, '4'.toNat, '5'.toNat, '6'.toNat, '7'.toNat, '8'.toNat, '9'.toNat, 'A'.toNat, 'B'.toNat, 'C'.toNat, 'D'.toNat, 'E'.toNat, 'F'.toNat, 'a'.toNat, 'b'.toNat, 'c'.toNat, 'd'.toNat, 'e'.toNat, 'f'.toNat]

/-- `is_all_valid_hex_chars<wchar_t>` (binascii/hexlify.hpp:32-39). -/
def isAllValidHexWchars (str : List Nat) : Bool := str.all (fun c => validHexWchars.contains c)

/-- `detail::wide_upper_case_bytes` (binascii/hexlify.hpp:76-93), all entries as written.  Nothing in the library uses it. -/
def wideUpperCaseBytes : List (Char × Char) := [
  ('0', '0'), ('0', '1'), ('0', '2'), ('0', '3'), ('0', '4'), ('0', '5'), ('0', '6'), ('0', '7'), ('0', '8'), ('0', '9'), ('0', 'A'), ('0', 'B'), ('0', 'C'), ('0', 'D'), ('0', 'E'), ('0', 'F'),
  ('1', '0'), ('1', '1'), ('1', '2'), ('1', '3'), ('1', '4'), ('1', '5'), ('1', '6'), ('1', '7'), ('1', '8'), ('1', '9'), ('1', 'A'), ('1', 'B'), ('1', 'C'), ('1', 'D'), ('1', 'E'), ('1', 'F'),
  ('2', '0'), ('2', '1'), ('2', '2'), ('2', '3'), ('2', '4'), ('2', '5'), ('2', '6'), ('2', '7'), ('2', '8'), ('2', '9'), ('2', 'A'), ('2', 'B'), ('2', 'C'), ('2', 'D'), ('2', 'E'), ('2', 'F'),
  ('3', '0'), ('3', '1'), ('3', '2'), ('3', '3'), ('3', '4'), ('3', '5'), ('3', '6'), ('3', '7'), ('3', '8'), ('3', '9'), ('3', 'A'), ('3', 'B'), ('3', 'C'), ('3', 'D'), ('3', 'E'), ('3', 'F'),
  ('4', '0'), ('4', '1'), ('4', '2'), ('4', '3'), ('4', '4'), ('4', '5'), ('4', '6'), ('4', '7'), ('4', '8'), ('4', '9'), ('4', 'A'), ('4', 'B'), ('4', 'C'), ('4', 'D'), ('4', 'E'), ('4', 'F'),
  ('5', '0'), ('5', '1'), ('5', '2'), ('5', '3'), ('5', '4'), ('5', '5'), ('5', '6'), ('5', '7'), ('5', '8'), ('5', '9'), ('5', 'A'), ('5', 'B'), ('5', 'C'), ('5', 'D'), ('5', 'E'), ('5', 'F'),
  ('6', '0'), ('6', '1'), ('6', '2'), ('6', '3'), ('6', '4'), ('6', '5'), ('6', '6'), ('6', '7'), ('6', '8'), ('6', '9'), ('6', 'A'), ('6', 'B'), ('6', 'C'), ('6', 'D'), ('6', 'E'), ('6', 'F'),
  ('7', '0'), ('7', '1'), ('7', '2'), ('7', '3'), ('7', '4'), ('7', '5'), ('7', '6'), ('7', '7'), ('7', '8'), ('7', '9'), ('7', 'A'), ('7', 'B'), ('7', 'C'), ('7', 'D'), ('7', 'E'), ('7', 'F'),
  ('8', '0'), ('8', '1'), ('8', '2'), ('8', '3'), ('8', '4'), ('8', '5'), ('8', '6'), ('8', '7'), ('8', '8'), ('8', '9'), ('8', 'A'), ('8', 'B'), ('8', 'C'), ('8', 'D'), ('8', 'E'), ('8', 'F'),
  ('9', '0'), ('9', '1'), ('9', '2'), ('9', '3'), ('9', '4'), ('9', '5'), ('9', '6'), ('9', '7'), ('9', '8'), ('9', '9'), ('9', 'A'), ('9', 'B'), ('9', 'C'), ('9', 'D'), ('9', 'E'), ('9', 'F'),
  ('A', '0'), ('A', '1'), ('A', '2'), ('A', '3'), ('A', '4'), ('A', '5'), ('A', '6'), ('A', '7'), ('A', '8'), ('A', '9'), ('A', 'A'), ('A', 'B'), ('A', 'C'), ('A', 'D'), ('A', 'E'), ('A', 'F'),
  ('B', '0'), ('B', '1'), ('B', '2'), ('B', '3'), ('B', '4'), ('B', '5'), ('B', '6'), ('B', '7'), ('B', '8'), ('B', '9'), ('B', 'A'), ('B', 'B'), ('B', 'C'), ('B', 'D'), ('B', 'E'), ('B', 'F'),
  ('C', '0'), ('C', '1'), ('C', '2'), ('C', '3'), ('C', '4'), ('C', '5'), ('C', '6'), ('C', '7'), ('C', '8'), ('C', '9'), ('C', 'A'), ('C', 'B'), ('C', 'C'), ('C', 'D'), ('C', 'E'), ('C', 'F'),
  ('D', '0'), ('D', '1'), ('D', '2'), ('D', '3'), ('D', '4'), ('D', '5'), ('D', '6'), ('D', '7'), ('D', '8'), ('D', '9'), ('D', 'A'), ('D', 'B'), ('D', 'C'), ('D', 'D'), ('D', 'E'), ('D', 'F'),
  ('E', '0'), ('E', '1'), ('E', '2'), ('E', '3'), ('E', '4'), ('E', '5'), ('E', '6'), ('E', '7'), ('E', '8'), ('E', '9'), ('E', 'A'), ('E', 'B'), ('E', 'C'), ('E', 'D'), ('E', 'E'), ('E', 'F'),
  ('F', '0'), ('F', '1'), ('F', '2'), ('F', '3'), ('F', '4'), ('F', '5'), ('F', '6'), ('F', '7'), ('F', '8'), ('F', '9'), ('F', 'A'), ('F', 'B'), ('F', 'C'), ('F', 'D'), ('F', 'E'), ('F', 'F')]

/-- `detail::low_nibble(wchar_t)` (binascii/hexlify.hpp:149-192). -/
def lowNibbleW (c : Nat) : Nat :=
  match c with
  | 48 => 0x00  -- L'0'
  | 49 => 0x01  -- L'1'
  | 50 => 0x02  -- L'2'
  | 51 => 0x03  -- L'3'
  | 52 => 0x04  -- L'4'
  | 53 => 0x05  -- L'5'
  | 54 => 0x06  -- L'6'
  | 55 => 0x07  -- L'7'
  | 56 => 0x08  -- L'8'
  | 57 => 0x09  -- L'9'
  | 65 => 0x0A  -- L'A'
  | 97 => 0x0A  -- L'a'
  | 66 => 0x0B  -- L'B'
  | 98 => 0x0B  -- L'b'
  | 67 => 0x0C  -- L'C'
  | 99 => 0x0C  -- L'c'
  | 68 => 0x0D  -- L'D'
  | 100 => 0x0D  -- L'd'
  | 69 => 0x0E  -- L'E'
  | 101 => 0x0E  -- L'e'
  | 70 => 0x0F  -- L'F'
  | 102 => 0x0F  -- L'f'
  | _ => 0xFF  -- _invalid_nibble, hexlify.hpp:98

/-- `detail::high_nibble(wchar_t)` (binascii/hexlify.hpp:243-286). -/
def highNibbleW (c : Nat) : Nat :=
  match c with
  | 48 => 0x00  -- L'0'
  | 49 => 0x10  -- L'1'
  | 50 => 0x20  -- L'2'
  | 51 => 0x30  -- L'3'
  | 52 => 0x40  -- L'4'
  | 53 => 0x50  -- L'5'
  | 54 => 0x60  -- L'6'
  | 55 => 0x70  -- L'7'
  | 56 => 0x80  -- L'8'
  | 57 => 0x90  -- L'9'
  | 65 => 0xA0  -- L'A'
  | 97 => 0xA0  -- L'a'
  | 66 => 0xB0  -- L'B'
  | 98 => 0xB0  -- L'b'
  | 67 => 0xC0  -- L'C'
  | 99 => 0xC0  -- L'c'
  | 68 => 0xD0  -- L'D'
  | 100 => 0xD0  -- L'd'
  | 69 => 0xE0  -- L'E'
  | 101 => 0xE0  -- L'e'
  | 70 => 0xF0  -- L'F'
  | 102 => 0xF0  -- L'f'
  | _ => 0xFF  -- _invalid_nibble, hexlify.hpp:98

/-- `unsafe_from_hex_chars<Result_T, wchar_t>` (binascii/hexlify.hpp:294-307). -/
def unsafeFromHexCharsW : (n : Nat) → (str : List Nat) → Outcome (List Nat)
  | 0, _ => .ok []
  | n + 1, c1 :: c2 :: rest => do
    let tail ← unsafeFromHexCharsW n rest
    pure ((highNibbleW c1 ||| lowNibbleW c2) % 256 :: tail)
  | _ + 1, _ => .ub

/-- `from_hex_chars(std::wstring_view)` (binascii/hexlify.hpp:325-336). -/
def fromHexCharsW (n : Nat) (str : List Nat) : Outcome (List Nat) :=
  if str.length ≠ 2 * n then .throw (.invalidArgument "Invalid sequence length for type")
  else if !isAllValidHexWchars str then .throw (.invalidArgument "Invalid hex char")
  else unsafeFromHexCharsW n str

/-- `try_from_hex_chars(std::wstring_view)` (binascii/hexlify.hpp:354-365). -/
def tryFromHexCharsW (n : Nat) (str : List Nat) : Outcome (Result (List Nat) Error) :=
  if str.length ≠ 2 * n then .ok (.error .invalidSequenceLength)
  else if !isAllValidHexWchars str then .ok (.error .invalidHexChar)
  else Result.value <$> unsafeFromHexCharsW n str

/-- The loop of `unhexlify(std::wstring_view)` (binascii/hexlify.hpp:407-410). -/
def unhexlifyLoopW : (k : Nat) → (str : List Nat) → Outcome (List Nat)
  | 0, _ => .ok []
  | k + 1, c1 :: c2 :: rest => do
    let b ← fromHexCharsW 1 [c1, c2]
    let tail ← unhexlifyLoopW k rest
    pure (b ++ tail)
  | _ + 1, _ => .ub

/-- `unhexlify(std::wstring_view)` (binascii/hexlify.hpp:403-413). -/
def unhexlifyW (str : List Nat) : Outcome (List Nat) := unhexlifyLoopW (str.length / 2) str

/-- `unsafe_unhexlify<N>(std::wstring_view)` (binascii/hexlify.hpp:433-444). -/
def unsafeUnhexlifyNW : (n : Nat) → (str : List Nat) → Outcome (List Nat)
  | 0, _ => .ok []
  | n + 1, c1 :: c2 :: rest => do
    let b ← unsafeFromHexCharsW 1 [c1, c2]
    let tail ← unsafeUnhexlifyNW n rest
    pure (b ++ tail)
  | _ + 1, _ => .ub

/-- `unhexlify<N>(std::wstring_view)` (binascii/hexlify.hpp:463-475). -/
def unhexlifyNW (n : Nat) (str : List Nat) : Outcome (List Nat) :=
  if str.length ≠ 2 * n then .throw (.invalidArgument "Invalid sequence length")
  else if !isAllValidHexWchars str then .throw (.invalidArgument "Invalid hex char")
  else unsafeUnhexlifyNW n str

/-- `try_unhexlify<N>(std::wstring_view)` (binascii/hexlify.hpp:496-508). -/
def tryUnhexlifyNW (n : Nat) (str : List Nat) : Outcome (Result (List Nat) Error) :=
  if str.length ≠ 2 * n then .ok (.error .invalidSequenceLength)
  else if !isAllValidHexWchars str then .ok (.error .invalidHexChar)
  else Result.value <$> unsafeUnhexlifyNW n str

end Wite.Hex
