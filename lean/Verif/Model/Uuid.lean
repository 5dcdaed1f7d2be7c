import Verif.Model.Io
import Verif.Model.Hexlify
import Verif.Model.Join

/-!
# Model of `wite/core/uuid.hpp`, `core/uuid/basic_uuid.hpp`,
`core/uuid/uuid_functions.hpp` and `core/uuid/uuid_hash.hpp`

A UUID is the list of its 16 bytes (`Storage_t`, basic_uuid.hpp:54, 62).  Characters are
code units.  The narrow and the wide instantiations differ only in the character type; the
narrow and wide format strings and delimiters of the source are the same text
(uuid_functions.hpp:215-329), so one table serves both.  `behind` is the memory that lies
behind the parser's 32-character array.
-/

namespace Wite.Uuid

open Wite.Io

/-! ## Formats -/

/-- `uuid_format_type` (core/uuid/uuid_functions.hpp:128-212) with its delimiters (105-126).
`opening`/`closing` are 0 when absent; `delims` are (character, position) pairs. -/
structure Format where
  size : Nat
  prefixed : Bool
  format : String
  opening : Nat
  closing : Nat
  delims : List (Nat × Nat)
  deriving DecidableEq, Repr

/-- `uuid_format::N` (core/uuid/uuid_functions.hpp:216-221). -/
def N : Format := ⟨32, false, "%08X%04X%04X%02X%02X%02X%02X%02X%02X%02X%02X", 0, 0, []⟩
/-- `uuid_format::n` (core/uuid/uuid_functions.hpp:223-228). -/
def n : Format := ⟨32, false, "%08x%04x%04x%02x%02x%02x%02x%02x%02x%02x%02x", 0, 0, []⟩
/-- `uuid_format::D` (core/uuid/uuid_functions.hpp:230-242). -/
def D : Format := ⟨36, false, "%08X-%04X-%04X-%02X%02X-%02X%02X%02X%02X%02X%02X", 0, 0,
  [(45, 8), (45, 13), (45, 18), (45, 23)]⟩
/-- `uuid_format::d` (core/uuid/uuid_functions.hpp:244-256). -/
def d : Format := ⟨36, false, "%08x-%04x-%04x-%02x%02x-%02x%02x%02x%02x%02x%02x", 0, 0,
  [(45, 8), (45, 13), (45, 18), (45, 23)]⟩
/-- `uuid_format::B` (core/uuid/uuid_functions.hpp:258-270). -/
def B : Format := ⟨38, false, "{%08X-%04X-%04X-%02X%02X-%02X%02X%02X%02X%02X%02X}", 123, 125,
  [(45, 9), (45, 14), (45, 19), (45, 24)]⟩
/-- `uuid_format::b` (core/uuid/uuid_functions.hpp:272-284). -/
def b : Format := ⟨38, false, "{%08x-%04x-%04x-%02x%02x-%02x%02x%02x%02x%02x%02x}", 123, 125,
  [(45, 9), (45, 14), (45, 19), (45, 24)]⟩
/-- `uuid_format::P` (core/uuid/uuid_functions.hpp:286-298). -/
def P : Format := ⟨38, false, "(%08X-%04X-%04X-%02X%02X-%02X%02X%02X%02X%02X%02X)", 40, 41,
  [(45, 9), (45, 14), (45, 19), (45, 24)]⟩
/-- `uuid_format::p` (core/uuid/uuid_functions.hpp:300-312). -/
def p : Format := ⟨38, false, "(%08x-%04x-%04x-%02x%02x-%02x%02x%02x%02x%02x%02x)", 40, 41,
  [(45, 9), (45, 14), (45, 19), (45, 24)]⟩
/-- `uuid_format::X` (core/uuid/uuid_functions.hpp:314-320): no opening and closing given. -/
def X : Format := ⟨68, true,
  "{0x%08X,0x%04X,0x%04X,{0x%02X,0x%02X,0x%02X,0x%02X,0x%02X,0x%02X,0x%02X,0x%02X}}", 0, 0, []⟩
/-- `uuid_format::x` (core/uuid/uuid_functions.hpp:322-328). -/
def x : Format := ⟨68, true,
  "{0x%08x,0x%04x,0x%04x,{0x%02x,0x%02x,0x%02x,0x%02x,0x%02x,0x%02x,0x%02x,0x%02x}}", 123, 125, []⟩

/-! ## Printing -/

/-- The elements of a printf format string that occur in the table: a literal character, or
`%0<width>X` / `%0<width>x`. -/
inductive Tok where
  | lit (c : Nat)
  | hex (width : Nat) (upper : Bool)
  deriving DecidableEq, Repr

/-- Reading a printf format string made of literals and `%0<digit>X`, `%0<digit>x`
conversions; `none` for any other use of `%`. -/
def parseFormat : List Char → Option (List Tok)
  | '%' :: '0' :: w :: c :: rest =>
    if w.isDigit then
      if c = 'X' then (parseFormat rest).map (Tok.hex (w.toNat - 48) true :: ·)
      else if c = 'x' then (parseFormat rest).map (Tok.hex (w.toNat - 48) false :: ·)
      else none
    else none
  | '%' :: _ => none
  | c :: rest => (parseFormat rest).map (Tok.lit c.toNat :: ·)
  | [] => some []

/-- One hexadecimal digit as printed by `%X` or `%x`. -/
def printDigit (upper : Bool) (v : Nat) : Nat :=
  if v < 10 then 48 + v else if upper then 55 + v else 87 + v

/-- The digits `%X` prints before padding, least significant first: at most 8 for a 32-bit
argument, none for zero. -/
def printDigits (upper : Bool) : (fuel : Nat) → Nat → List Nat
  | 0, _ => []
  | fuel + 1, v => if v = 0 then [] else printDigit upper (v % 16) :: printDigits upper fuel (v / 16)

/-- `%0<width>X`: at least one digit, padded on the left with zeros to the width. -/
def printHex (upper : Bool) (width v : Nat) : List Nat :=
  let ds := (printDigits upper 8 v).reverse
  let ds := if ds.isEmpty then [48] else ds
  List.replicate (width - ds.length) 48 ++ ds

/-- The text `snprintf` produces; a missing argument is undefined behaviour. -/
def formatText : List Tok → List Nat → Outcome (List Nat)
  | [], _ => .ok []
  | .lit c :: ts, args => do
    let rest ← formatText ts args
    pure (c :: rest)
  | .hex w up :: ts, a :: args => do
    let rest ← formatText ts args
    pure (printHex up w a ++ rest)
  | .hex _ _ :: _, [] => .ub

/-- `snprintf(buffer, count, text)` into a buffer at the start of `mem`: at most `count - 1`
characters and a terminating NUL are stored.  (`swprintf` behaves the same when the text
fits, which is the only case that arises.) -/
def snprintf (count : Nat) (text : List Nat) : St (List Nat) PUnit := fun mem =>
  if count = 0 then (.ok ⟨⟩, mem)
  else
    let out := text.take (count - 1) ++ [0]
    if out.length ≤ mem.length then (.ok ⟨⟩, out ++ mem.drop out.length) else (.ub, mem)

/-- The number an unsigned integer object holds on the given machine. -/
def numberOf (host : Endian) (o : Obj) : Nat :=
  match host with
  | .little => o.foldr (fun b acc => b + 256 * acc) 0
  | .big => o.foldl (fun acc b => 256 * acc + b) 0

/-- `_to_c_str` (core/uuid/uuid_functions.hpp:351-383).  The state is the memory starting at
the caller's buffer. -/
def toCStrFmt (host : Endian) (id : List Nat) (fmt : Format) (maxLen : Nat) : St (List Nat) Bool := do
  if maxLen < fmt.size + 1 then pure false
  else do
    let (d1, p1) ← St.lift (uncheckedRead host ⟨4, .littleEndian⟩ id 0)
    let (d2, p2) ← St.lift (uncheckedRead host ⟨2, .littleEndian⟩ id p1)
    let (d3, _) ← St.lift (uncheckedRead host ⟨2, .littleEndian⟩ id p2)
    let d4 ← St.lift (readMem id 8 8)
    let text ← St.lift (match parseFormat fmt.format.toList with
      | some toks => formatText toks (numberOf host d1 :: numberOf host d2 :: numberOf host d3 :: d4)
      | none => .ub)
    snprintf maxLen text
    pure true

/-- The `switch` over the format letter used for printing, in `_to_string`
(core/uuid/uuid_functions.hpp:398-427) and `to_c_str` (435-463). -/
def printFormat (f : Char) : Option Format :=
  match f with
  | 'D' => some D
  | 'N' => some N
  | 'B' => some B
  | 'P' => some P
  | 'X' => some X
  | 'd' => some d
  | 'n' => some n
  | 'b' => some b
  | 'p' => some p
  | 'x' => some x
  | _ => none

/-- `to_c_str` (core/uuid/uuid_functions.hpp:435-463), also behind `into_c_str`
(core/uuid.hpp:90-95). -/
def toCStr (host : Endian) (id : List Nat) (maxLen : Nat) (f : Char) : St (List Nat) Bool :=
  match printFormat f with
  | some fmt => toCStrFmt host id fmt maxLen
  | none => pure false

/-- The string constructed from a NUL-terminated character array: reads up to the first NUL;
reading past the memory is undefined behaviour. -/
def ofCStr (mem : List Nat) : Outcome (List Nat) :=
  if 0 ∈ mem then .ok (mem.takeWhile (· ≠ 0)) else .ub

/-- `_to_string(id, fmt)` (core/uuid/uuid_functions.hpp:387-394): a zeroed buffer of
`1 + X.size` characters. -/
def toStringFmt (host : Endian) (id : List Nat) (fmt : Format) : Outcome (List Nat) :=
  match (toCStrFmt host id fmt (1 + X.size)).run (List.replicate (1 + X.size) 0) with
  | (.ok _, mem) => ofCStr mem
  | (.throw e, _) => .throw e
  | (.ub, _) => .ub
  | (.terminate, _) => .terminate
  | (.diverge, _) => .diverge

/-- `_to_string(id, char)` (core/uuid/uuid_functions.hpp:398-427), behind `to_string`,
`to_wstring` (467-477), `str` and `wstr` (core/uuid.hpp:96-97). -/
def str (host : Endian) (id : List Nat) (f : Char) : Outcome (List Nat) :=
  match printFormat f with
  | some fmt => toStringFmt host id fmt
  | none => .throw (.invalidArgument "Invalid UUID format type")

/-! ## Parsing -/

/-- `std::isxdigit` in the "C" locale; an argument that is not an unsigned char value is
undefined behaviour.  Simplified: the wide code unit that converts to `EOF` counts as
undefined too. -/
def isxdigit (c : Nat) : Outcome Bool :=
  if c ≤ 255 then .ok (decide ((48 ≤ c ∧ c ≤ 57) ∨ (65 ≤ c ∧ c ≤ 70) ∨ (97 ≤ c ∧ c ≤ 102))) else .ub

/-- `is_opening` / `is_closing` (core/uuid/uuid_functions.hpp:148-164): with no delimiter
given any character is accepted. -/
def isDelimiter (wanted c : Nat) : Bool := wanted == 0 || wanted == c

/-- `has_invalid_delimiter` (core/uuid/uuid_functions.hpp:194-197); indexing past the end of
the view is undefined behaviour. -/
def hasInvalidDelimiter : List (Nat × Nat) → List Nat → Outcome Bool
  | [], _ => .ok false
  | (v, pos) :: ds, s =>
    match s[pos]? with
    | none => .ub
    | some c => if v ≠ c then .ok true else hasInvalidDelimiter ds s

/-- `is_a_valid_uuid_string` (core/uuid/uuid_functions.hpp:184-204). -/
def isAValidUuidString (fmt : Format) (s : List Nat) : Outcome Bool :=
  if s.length ≠ fmt.size then .ok false
  else
    match s.head?, s.getLast? with
    | some front, some back =>
      if !isDelimiter fmt.opening front || !isDelimiter fmt.closing back then .ok false
      else do
        let bad ← hasInvalidDelimiter fmt.delims s
        pure (!bad)
    | _, _ => .ub

/-- `remove_0x_prefixes_and_nonhex_chars` (core/uuid/uuid_functions.hpp:43-58).  Looking at
the character after the last one and writing past the 32-character array are undefined
behaviour. -/
def remove0x : List Nat → List Nat × Nat → Outcome (List Nat × Nat)
  | [], st => .ok st
  | [c], st =>
    if c = 48 then .ub
    else do
      let h ← isxdigit c
      if !h then pure st else Join.writeOne st c
  | c :: c' :: rest, st =>
    if c = 48 ∧ c' = 120 then remove0x rest st
    else do
      let h ← isxdigit c
      if !h then remove0x (c' :: rest) st
      else do
        let st' ← Join.writeOne st c
        remove0x (c' :: rest) st'

/-- The `copy_if` of `strip_non_hex_characters` (core/uuid/uuid_functions.hpp:73-75). -/
def copyHex : List Nat → List Nat × Nat → Outcome (List Nat × Nat)
  | [], st => .ok st
  | c :: rest, st => do
    let h ← isxdigit c
    if h then do
      let st' ← Join.writeOne st c
      copyHex rest st'
    else copyHex rest st

/-- `strip_non_hex_characters` (core/uuid/uuid_functions.hpp:60-77) into a zeroed array of 32
characters. -/
def stripNonHex (s : List Nat) (prefixed : Bool) : Outcome (List Nat) := do
  let st ← if prefixed then remove0x s (List.replicate 32 0, 0) else copyHex s (List.replicate 32 0, 0)
  pure st.1

/-- The distance from the start of the array to one past its last non-NUL character
(core/uuid.hpp:143-145 and 199-201). -/
def usedLength (arr : List Nat) : Nat := (arr.reverse.dropWhile (· = 0)).length

/-- `format_as_uuid_data` (core/uuid/uuid_functions.hpp:79-84): reverses bytes [0,4), [4,6)
and [6,8). -/
def formatAsUuidData (arr : List Nat) : List Nat :=
  (arr.take 4).reverse ++ ((arr.drop 4).take 2).reverse ++ ((arr.drop 6).take 2).reverse ++ arr.drop 8

/-- `unsafe_basic_uuid_from_string` (core/uuid/uuid_functions.hpp:481-489) on a view of the
array: `s.data()` converts to a new view by searching for a NUL from the start of the array
into the memory behind it. -/
def unsafeFromString (arr behind : List Nat) : Outcome (List Nat) := do
  let view ← ofCStr (arr ++ behind)
  let bytes ← Hex.unsafeUnhexlifyN 16 view
  pure (formatAsUuidData bytes)

/-- `_init_from_wrapped_fmt_string` (core/uuid.hpp:134-150). -/
def initFromFmt (s : List Nat) (fmt : Format) (behind : List Nat) : Outcome (List Nat) := do
  let valid ← isAValidUuidString fmt s
  if !valid then .throw (.invalidArgument "Invalid UUID format")
  else do
    let arr ← stripNonHex s fmt.prefixed
    if usedLength arr ≠ arr.length then .throw (.invalidArgument "Invalid UUID format")
    else unsafeFromString arr behind

/-- The string constructors (core/uuid.hpp:79-86) and `_init_from_string` (100-132). -/
def ofString (s : List Nat) (f : Char) (behind : List Nat) : Outcome (List Nat) :=
  match f with
  | 'N' | 'n' => initFromFmt s N behind
  | 'D' | 'd' => initFromFmt s D behind
  | 'B' | 'b' => initFromFmt s B behind
  | 'P' | 'p' => initFromFmt s P behind
  | 'X' | 'x' => initFromFmt s X behind
  | _ => .throw (.invalidArgument "Invalid UUID format type")

/-- `make_uuid_error` (core/uuid.hpp:167-170). -/
inductive MakeError where
  | invalidUuidFormat
  | invalidUuidFormatType
  deriving DecidableEq, Repr

/-- `try_make_uuid(s, fmt)` (core/uuid.hpp:186-209). -/
def tryMakeFmt (s : List Nat) (fmt : Format) (behind : List Nat) : Outcome (Result (List Nat) MakeError) := do
  let valid ← isAValidUuidString fmt s
  if !valid then pure (.error .invalidUuidFormat)
  else do
    let arr ← stripNonHex s fmt.prefixed
    if usedLength arr ≠ arr.length then pure (.error .invalidUuidFormat)
    else do
      let out ← unsafeFromString arr behind
      pure (.value out)

/-- `try_make_uuid(s, format)` (core/uuid.hpp:211-250). -/
def tryMake (s : List Nat) (f : Char) (behind : List Nat) : Outcome (Result (List Nat) MakeError) :=
  match f with
  | 'N' | 'n' => tryMakeFmt s N behind
  | 'D' | 'd' => tryMakeFmt s D behind
  | 'B' | 'b' => tryMakeFmt s B behind
  | 'P' | 'p' => tryMakeFmt s P behind
  | 'X' | 'x' => tryMakeFmt s X behind
  | _ => .ok (.error .invalidUuidFormatType)

/-! ## Other constructors, comparison, hash -/

/-- The bytes in memory of an unsigned integer of `k` bytes. -/
def objectOf (host : Endian) (k v : Nat) : Obj :=
  let le := (List.range k).map (fun i => v / 256 ^ i % 256)
  match host with
  | .little => le
  | .big => le.reverse

/-- Constructor from the four fields (core/uuid.hpp:56-58): `io::write` of three
little-endian integers and an array of bytes into the zeroed storage. -/
def ofFields (host : Endian) (d1 d2 d3 : Nat) (d4 : List Nat) : Outcome (List Nat) :=
  match (write host [.single .littleEndian (objectOf host 4 d1), .single .littleEndian (objectOf host 2 d2),
      .single .littleEndian (objectOf host 2 d3), .range 1 (d4.map fun b => [b])]).run
      (List.replicate 16 0) with
  | (.ok _, out) => .ok out
  | (.throw e, _) => .throw e
  | (.ub, _) => .ub
  | (.terminate, _) => .terminate
  | (.diverge, _) => .diverge

/-- Constructor from a random engine (core/uuid.hpp:62-76).  `r1` and `r2` are the two 64-bit
values drawn (`uniform_int_distribution` over the full range returns any value the engine
produces).  The stores through `uint64_t*` are modelled as stores of the eight bytes in host
order; the aliasing rule they break is in `IoAccess.lean`. -/
def ofRandom (host : Endian) (r1 r2 : Nat) : List Nat :=
  let a := objectOf host 8 r1
  let a := a.modify 6 (fun v => (v &&& 0x0F) ||| 0x40)
  let c := objectOf host 8 r2
  let c := c.modify 0 (fun v => (v &&& 0x3F) ||| 0x80)
  a ++ c

/-- `operator<=>` of the storage (core/uuid/basic_uuid.hpp:60, core/uuid.hpp:88): the
defaulted comparison of `std::array` is `lexicographical_compare_three_way`. -/
def compare : List Nat → List Nat → Ordering
  | [], [] => .eq
  | [], _ :: _ => .lt
  | _ :: _, [] => .gt
  | x :: xs, y :: ys => if x < y then .lt else if y < x then .gt else compare xs ys

/-- `std::hash<uuid>` (core/uuid.hpp:258-264, core/uuid/uuid_hash.hpp:16-22).  `h` is
`std::hash<uint64_t>`; the two halves are read as integers in host order. -/
def hash (host : Endian) (h : Nat → Nat) (id : List Nat) : Nat :=
  h (numberOf host (id.take 8)) ^^^ h (numberOf host (id.drop 8))

end Wite.Uuid
