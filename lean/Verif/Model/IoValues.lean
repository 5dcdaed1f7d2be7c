import Verif.Model.IoView
import Verif.Model.IoStream
import Verif.Model.Hexlify

/-!
# Reading bytes that are no value of the type

`Io.lean`, `IoView.lean`, `IoStream.lean` and `Hexlify.lean` take every pattern of bytes for a value.  For `bool`, for enumerations
without a fixed underlying type and for classes with such members that is not so: the bytes of a `bool` are 0 or 1.  All reading functions of
the library fill an object byte by byte and then return a copy of it.  Copying a scalar loads it, and loading an object whose bytes are no
value is undefined behaviour; copying a class copies its bytes, so the object arrives at the caller as it is.

Simplifications: the implicit copy of a class never loads a member (true of the code compilers make, the standard speaks of copies of the
members); a type is either a scalar or a class, arrays inside `std::array` count as a class.
-/

namespace Wite.Io.Values

/-- A type that can be read: size and encoding, whether it is a class, and which bytes in memory order are a value. -/
structure ValTy where
  ty : Ty
  cls : Bool
  isValue : Obj → Bool

/-- `bool`: one byte, 0 or 1. -/
def boolTy : ValTy := ⟨⟨1, .native⟩, false, fun o => decide (o = [0]) || decide (o = [1])⟩

/-- An unsigned or signed integer type of `n` bytes, or an enumeration with a fixed underlying type: all bytes are values. -/
def intTy (n : Nat) (enc : Enc) : ValTy := ⟨⟨n, enc⟩, false, fun _ => true⟩

/-- Copying an object into a return value or a `std::pair` (io/byte_buffer_read.hpp:45, 50, binascii/hexlify.hpp:306, io/byte_stream.hpp:31). -/
def load (t : ValTy) (o : Obj) : Outcome Obj := if t.cls || t.isValue o then .ok o else .ub

/-- `unchecked_read` (io/byte_buffer_read.hpp:37-52). -/
def uncheckedRead (host : Endian) (t : ValTy) (buf : List Nat) (pos : Nat) : Outcome (Obj × Nat) := do
  let bs ← readMem buf pos t.ty.size
  let v ← load t (bytesOf host t.ty.enc bs)
  pure (v, pos + t.ty.size)

/-- `_recursive_read` (io/byte_buffer_read.hpp:58-70). -/
def recursiveRead (host : Endian) : List ValTy → List Nat → Outcome (List Obj)
  | [], _ => .ok []
  | t :: ts, buf => do
    let (v, next) ← uncheckedRead host t buf 0
    let rest ← spanFrom buf next
    let vs ← recursiveRead host ts rest
    pure (v :: vs)

/-- `read<Ts...>(buffer)` (io/byte_buffer_read.hpp:77-84). -/
def readAll (host : Endian) (ts : List ValTy) (buf : List Nat) : Outcome (List Obj) :=
  if byteCountTys (ts.map (·.ty)) > buf.length then .throw (.outOfRange "Insufficient buffer space for read")
  else recursiveRead host ts buf

/-- The `std::ranges::generate` of `read_range` and `try_read_range` (io/byte_buffer_read.hpp:95-103, 162-170). -/
def generateRead (host : Endian) (t : ValTy) (buf : List Nat) : (n : Nat) → (pos : Nat) → Outcome (List Obj)
  | 0, _ => .ok []
  | n + 1, pos => do
    let (v, next) ← uncheckedRead host t buf pos
    let vs ← generateRead host t buf n next
    pure (v :: vs)

/-- `read_range` into a range of `n` elements (io/byte_buffer_read.hpp:88-106). -/
def readRange (host : Endian) (t : ValTy) (n : Nat) (buf : List Nat) : Outcome (List Obj) :=
  if byteCountRange t.ty n > buf.length then .throw (.outOfRange "Insufficient buffer space for read")
  else generateRead host t buf n 0

/-- `read_at<Ts...>` (io/byte_buffer_read.hpp:110-121). -/
def readAt (host : Endian) (ts : List ValTy) (pos : Nat) (buf : List Nat) : Outcome (List Obj) :=
  if (pos + byteCountTys (ts.map (·.ty))) % sizeMod < pos then .throw (.invalidArgument "Buffer read position exceeds allowed value")
  else if pos > buf.length then .throw (.outOfRange "Insufficient buffer space for read")
  else do
    let sp ← spanFrom buf pos
    readAll host ts sp

/-- `read_range_at` (io/byte_buffer_read.hpp:125-137). -/
def readRangeAt (host : Endian) (t : ValTy) (n : Nat) (pos : Nat) (buf : List Nat) : Outcome (List Obj) :=
  if (pos + byteCountRange t.ty n) % sizeMod < pos then .throw (.invalidArgument "Buffer read position exceeds allowed value")
  else if pos > buf.length then .throw (.outOfRange "Insufficient buffer space for read")
  else do
    let sp ← spanFrom buf pos
    readRange host t n sp

/-- `try_read<T>` and `try_from_bytes<T>` (io/byte_buffer_read.hpp:143-151, 177-185, 319-323). -/
def tryRead (host : Endian) (t : ValTy) (buf : List Nat) : Outcome (Result Obj ReadError) :=
  if buf.length < t.ty.size then .ok (.error .insufficientBuffer)
  else do
    let (v, _) ← uncheckedRead host t buf 0
    pure (.value v)

/-- `try_read_range` (io/byte_buffer_read.hpp:155-173). -/
def tryReadRange (host : Endian) (t : ValTy) (n : Nat) (buf : List Nat) : Outcome (Result (List Obj) ReadError) :=
  if buf.length < (n * t.ty.size) % sizeMod then .ok (.error .insufficientBuffer)
  else do
    let vs ← generateRead host t buf n 0
    pure (.value vs)

/-- `try_read_at<T>` (io/byte_buffer_read.hpp:189-201, 205-217). -/
def tryReadAt (host : Endian) (t : ValTy) (pos : Nat) (buf : List Nat) : Outcome (Result Obj ReadError) :=
  if (pos + t.ty.size) % sizeMod < pos then .ok (.error .invalidPositionOffset)
  else if pos ≥ buf.length then .ok (.error .insufficientBuffer)
  else do
    let sp ← spanFrom buf pos
    tryRead host t sp

/-- `try_read_range_at` (io/byte_buffer_read.hpp:221-233). -/
def tryReadRangeAt (host : Endian) (t : ValTy) (n : Nat) (pos : Nat) (buf : List Nat) : Outcome (Result (List Obj) ReadError) :=
  if (pos + byteCountRange t.ty n) % sizeMod < pos then .ok (.error .invalidPositionOffset)
  else if pos ≥ buf.length then .ok (.error .insufficientBuffer)
  else do
    let sp ← spanFrom buf pos
    tryReadRange host t n sp

/-- The multi-value `try_read` (io/byte_buffer_read.hpp:239-255, 277-282). -/
def recursiveTryRead (host : Endian) : List ValTy → List Nat → Outcome (List (Result Obj ReadError))
  | [], _ => .ok []
  | t :: ts, buf => do
    let first ← tryRead host t buf
    let sp ← spanFrom buf (if first.ok then t.ty.size else buf.length)
    let others ← recursiveTryRead host ts sp
    pure (first :: others)

/-- The multi-value `try_read_at` (io/byte_buffer_read.hpp:257-271, 286-291). -/
def recursiveTryReadAt (host : Endian) : List ValTy → (pos : Nat) → List Nat → Outcome (List (Result Obj ReadError))
  | [], _, _ => .ok []
  | t :: ts, pos, buf => do
    let first ← tryReadAt host t pos buf
    let others ← recursiveTryReadAt host ts ((pos + t.ty.size) % sizeMod) buf
    pure (first :: others)

/-- `byte_read_buffer_view::read<Ts...>` (io/byte_read_buffer_view.hpp:77-83). -/
def viewRead (host : Endian) (ts : List ValTy) : St ReadView (List Obj) := do
  let sp ← ReadView.rest
  let out ← St.lift (readAll host ts sp)
  ReadView.advance (byteCountTys (ts.map (·.ty)))
  pure out

/-- `byte_read_buffer_view::try_read<Ts...>` (io/byte_read_buffer_view.hpp:103-111). -/
def viewTryRead (host : Endian) (ts : List ValTy) : St ReadView (List (Result Obj ReadError)) := do
  let sp ← ReadView.rest
  let out ← St.lift (recursiveTryRead host ts sp)
  let v ← St.get
  ReadView.advance (min (byteCountTys (ts.map (·.ty))) (v.data.length - v.pos))
  pure out

/-- `read<T>(std::istream&)` (io/byte_stream.hpp:25-32). -/
def streamRead (t : ValTy) : St Ios.IStream Obj := do
  let o ← Ios.read t.ty.size
  St.lift (load t o)

/-- `unsafe_from_hex_chars<T>` (binascii/hexlify.hpp:294-307), which has no constraint on `T`: `trivial` is whether it is trivially copyable;
overwriting the bytes of an object of another type is undefined behaviour as soon as the object is used, at the latest by its destructor. -/
def unsafeFromHexChars (trivial : Bool) (t : ValTy) (str : List Nat) : Outcome Obj := do
  let o ← Hex.unsafeFromHexChars t.ty.size str
  if trivial then load t o else .ub

/-- `from_hex_chars<T>` (binascii/hexlify.hpp:312-323). -/
def fromHexChars (trivial : Bool) (t : ValTy) (str : List Nat) : Outcome Obj :=
  if str.length ≠ 2 * t.ty.size then .throw (.invalidArgument "Invalid sequence length for type")
  else if !Hex.isAllValidHexChars str then .throw (.invalidArgument "Invalid hex char")
  else unsafeFromHexChars trivial t str

/-- `try_from_hex_chars<T>` (binascii/hexlify.hpp:341-352). -/
def tryFromHexChars (trivial : Bool) (t : ValTy) (str : List Nat) : Outcome (Result Obj Hex.Error) :=
  if str.length ≠ 2 * t.ty.size then .ok (.error .invalidSequenceLength)
  else if !Hex.isAllValidHexChars str then .ok (.error .invalidHexChar)
  else Result.value <$> unsafeFromHexChars trivial t str

end Wite.Io.Values
