import Verif.Model.State
import Verif.Model.Result

/-!
# Model of `wite/io`: encodings, buffer reads and writes

Files: io/encoding.hpp, io/byte_utilities.hpp, io/types.hpp, io/byte_buffer_read.hpp,
io/byte_buffer_write.hpp.

An object of a trivially copyable type is the list of its bytes in memory order.  Two
objects with the same bytes are the same value; padding bytes are treated like any other
byte.  `sizeof(io::little_endian<T>) = sizeof(T)` (empty bases).  The endianness of the
machine (`system_native_endianness`, io/encoding.hpp:29-43) is the parameter `host`.
`size_t` arithmetic is explicit modulo 2^64.  A buffer (`byte_range_like`) is a list of
bytes; iterators into it are offsets; an access outside it is undefined behaviour.
-/

namespace Wite.Io

/-- 2^64: `size_t` wraps modulo this. -/
def sizeMod : Nat := 2 ^ 64

/-- `io::endian` (io/encoding.hpp:23-27). -/
inductive Endian where
  | little
  | big
  deriving DecidableEq, Repr

/-- How a type is laid out in a buffer: as in memory, or `io::little_endian<T>` /
`io::big_endian<T>` (io/encoding.hpp:47-130). -/
inductive Enc where
  | native
  | littleEndian
  | bigEndian
  deriving DecidableEq, Repr

/-- A type that can be read from or written to a buffer (io/concepts.hpp:48-55): its size
(`value_size`, io/byte_utilities.hpp:16-26) and its encoding. -/
structure Ty where
  size : Nat
  enc : Enc
  deriving DecidableEq, Repr

/-- An object: its bytes in memory order. -/
abbrev Obj := List Nat

/-- `enum class read_error` (io/types.hpp:57). -/
inductive ReadError where
  | insufficientBuffer
  | invalidPositionOffset
  | fileNotFound
  deriving DecidableEq, Repr

/-- `enum class write_error` (io/types.hpp:64). -/
inductive WriteError where
  | insufficientBuffer
  | invalidPositionOffset
  deriving DecidableEq, Repr

/-- The bytes of `value` seen through `little_endian::byte_begin` (io/encoding.hpp:67-76,
78-87): a plain pointer on a little-endian host, a reverse iterator from one past the end
otherwise.  Used both to read the object's bytes and (an involution) to store them. -/
def littleEndianBytes (host : Endian) (o : Obj) : List Nat :=
  match host with
  | .little => o
  | .big => o.reverse

/-- The bytes of `value` seen through `big_endian::byte_begin` (io/encoding.hpp:103-112,
115-124). -/
def bigEndianBytes (host : Endian) (o : Obj) : List Nat :=
  match host with
  | .little => o.reverse
  | .big => o

/-- The bytes of an object in the order `copy_n` visits them: `byte_begin` for encoded
types, `reinterpret_cast` of the object's address otherwise. -/
def bytesOf (host : Endian) : Enc → Obj → List Nat
  | .native, o => o
  | .littleEndian, o => littleEndianBytes host o
  | .bigEndian, o => bigEndianBytes host o

/-! ## Reading -/

/-- Read `n` consecutive bytes at offset `pos` (`std::copy_n` from a buffer iterator). -/
def readMem (buf : List Nat) (pos n : Nat) : Outcome (List Nat) :=
  if pos + n ≤ buf.length then .ok ((buf.drop pos).take n) else .ub

/-- `std::span{std::next(buffer.begin(), pos), buffer.end()}`; a position beyond the end is
undefined behaviour. -/
def spanFrom (buf : List Nat) (pos : Nat) : Outcome (List Nat) :=
  if pos ≤ buf.length then .ok (buf.drop pos) else .ub

/-- `unchecked_read` (io/byte_buffer_read.hpp:37-52): copies `value_size` bytes into a fresh
object, through `byte_begin` for encoded types; returns the value and the next iterator. -/
def uncheckedRead (host : Endian) (t : Ty) (buf : List Nat) (pos : Nat) : Outcome (Obj × Nat) := do
  let bs ← readMem buf pos t.size
  pure (bytesOf host t.enc bs, pos + t.size)

/-- `_recursive_read` (io/byte_buffer_read.hpp:58-70).  The tuple of values is a list; the
empty pack, which does not occur in the source, returns the empty list. -/
def recursiveRead (host : Endian) : List Ty → List Nat → Outcome (List Obj)
  | [], _ => .ok []
  | t :: ts, buf => do
    let (v, next) ← uncheckedRead host t buf 0
    let rest ← spanFrom buf next
    let vs ← recursiveRead host ts rest
    pure (v :: vs)

/-- `byte_count<Ts...>()` (io/byte_utilities.hpp:52-61), in `size_t`. -/
def byteCountTys : List Ty → Nat
  | [] => 0
  | t :: ts => (t.size + byteCountTys ts) % sizeMod

/-- `read<Ts...>(buffer)` (io/byte_buffer_read.hpp:77-84). -/
def read (host : Endian) (ts : List Ty) (buf : List Nat) : Outcome (List Obj) :=
  if byteCountTys ts > buf.length then
    .throw (.outOfRange "Insufficient buffer space for read")
  else
    recursiveRead host ts buf

/-- The `std::ranges::generate` of `read_range` and `try_read_range`
(io/byte_buffer_read.hpp:95-103, 162-170): `n` successive reads. -/
def generateRead (host : Endian) (t : Ty) (buf : List Nat) : (n : Nat) → (pos : Nat) → Outcome (List Obj)
  | 0, _ => .ok []
  | n + 1, pos => do
    let (v, next) ← uncheckedRead host t buf pos
    let vs ← generateRead host t buf n next
    pure (v :: vs)

/-- `byte_count(range)` for a range of `n` elements (io/byte_utilities.hpp:28-39, 41-50). -/
def byteCountRange (t : Ty) (n : Nat) : Nat := (n * t.size) % sizeMod

/-- `read_range(buffer, range)` for a range of `n` elements (io/byte_buffer_read.hpp:88-106). -/
def readRange (host : Endian) (t : Ty) (n : Nat) (buf : List Nat) : Outcome (List Obj) :=
  if byteCountRange t n > buf.length then
    .throw (.outOfRange "Insufficient buffer space for read")
  else
    generateRead host t buf n 0

/-- `read_at<Ts...>(position, buffer)` (io/byte_buffer_read.hpp:110-121). -/
def readAt (host : Endian) (ts : List Ty) (pos : Nat) (buf : List Nat) : Outcome (List Obj) :=
  if (pos + byteCountTys ts) % sizeMod < pos then
    .throw (.invalidArgument "Buffer read position exceeds allowed value")
  else if pos > buf.length then
    .throw (.outOfRange "Insufficient buffer space for read")
  else do
    let sp ← spanFrom buf pos
    read host ts sp

/-- `read_range_at` (io/byte_buffer_read.hpp:125-137). -/
def readRangeAt (host : Endian) (t : Ty) (n : Nat) (pos : Nat) (buf : List Nat) : Outcome (List Obj) :=
  if (pos + byteCountRange t n) % sizeMod < pos then
    .throw (.invalidArgument "Buffer read position exceeds allowed value")
  else if pos > buf.length then
    .throw (.outOfRange "Insufficient buffer space for read")
  else do
    let sp ← spanFrom buf pos
    readRange host t n sp

/-- `try_read<T>(buffer)` (io/byte_buffer_read.hpp:143-151 and, for encoded types, 177-185). -/
def tryRead (host : Endian) (t : Ty) (buf : List Nat) : Outcome (Result Obj ReadError) :=
  if buf.length < t.size then .ok (.error .insufficientBuffer)
  else do
    let (v, _) ← uncheckedRead host t buf 0
    pure (.value v)

/-- `try_read_range(buffer, range)` (io/byte_buffer_read.hpp:155-173). -/
def tryReadRange (host : Endian) (t : Ty) (n : Nat) (buf : List Nat) :
    Outcome (Result (List Obj) ReadError) :=
  if buf.length < (n * t.size) % sizeMod then .ok (.error .insufficientBuffer)
  else do
    let vs ← generateRead host t buf n 0
    pure (.value vs)

/-- `try_read_at<T>(position, buffer)` (io/byte_buffer_read.hpp:189-201 and 205-217). -/
def tryReadAt (host : Endian) (t : Ty) (pos : Nat) (buf : List Nat) : Outcome (Result Obj ReadError) :=
  if (pos + t.size) % sizeMod < pos then .ok (.error .invalidPositionOffset)
  else if pos ≥ buf.length then .ok (.error .insufficientBuffer)
  else do
    let sp ← spanFrom buf pos
    tryRead host t sp

/-- `try_read_range_at` (io/byte_buffer_read.hpp:221-233). -/
def tryReadRangeAt (host : Endian) (t : Ty) (n : Nat) (pos : Nat) (buf : List Nat) :
    Outcome (Result (List Obj) ReadError) :=
  if (pos + byteCountRange t n) % sizeMod < pos then .ok (.error .invalidPositionOffset)
  else if pos ≥ buf.length then .ok (.error .insufficientBuffer)
  else do
    let sp ← spanFrom buf pos
    tryReadRange host t n sp

/-- `_recursive_try_read` (io/byte_buffer_read.hpp:239-255), behind the multi-value
`try_read` (277-282).  After a failed value the rest is read from the empty span at the
end. -/
def recursiveTryRead (host : Endian) : List Ty → List Nat → Outcome (List (Result Obj ReadError))
  | [], _ => .ok []
  | t :: ts, buf => do
    let first ← tryRead host t buf
    let sp ← spanFrom buf (if first.ok then t.size else buf.length)
    let others ← recursiveTryRead host ts sp
    pure (first :: others)

/-- `_recursive_try_read_at` (io/byte_buffer_read.hpp:257-271), behind the multi-value
`try_read_at` (286-291). -/
def recursiveTryReadAt (host : Endian) : List Ty → (pos : Nat) → List Nat → Outcome (List (Result Obj ReadError))
  | [], _, _ => .ok []
  | t :: ts, pos, buf => do
    let first ← tryReadAt host t pos buf
    let others ← recursiveTryReadAt host ts ((pos + t.size) % sizeMod) buf
    pure (first :: others)

/-- `read_with_endian<T>(buffer, endianness)` (io/byte_buffer_read.hpp:297-305). -/
def readWithEndian (host : Endian) (size : Nat) (buf : List Nat) (e : Endian) : Outcome (List Obj) :=
  if Endian.little = e then read host [⟨size, .littleEndian⟩] buf
  else read host [⟨size, .bigEndian⟩] buf

/-- `from_bytes<T>(buffer)` (io/byte_buffer_read.hpp:309-313). -/
def fromBytes (host : Endian) (t : Ty) (buf : List Nat) : Outcome (List Obj) := read host [t] buf

/-- `try_from_bytes<T>(buffer)` (io/byte_buffer_read.hpp:319-323). -/
def tryFromBytes (host : Endian) (t : Ty) (buf : List Nat) : Outcome (Result Obj ReadError) :=
  tryRead host t buf

/-! ## Writing -/

/-- An argument of `write`: a single value, or a sized range of values of `elemSize` bytes
each (`unchecked_write`, io/byte_buffer_write.hpp:81-93; only ranges of natively stored
elements compile). -/
inductive WVal where
  | single (enc : Enc) (o : Obj)
  | range (elemSize : Nat) (elems : List Obj)
  deriving DecidableEq, Repr

/-- `value_size(value)` (io/byte_utilities.hpp:28-39). -/
def valueSize : WVal → Nat
  | .single _ o => o.length
  | .range n elems => (elems.length * n) % sizeMod

/-- `byte_count(values...)` (io/byte_utilities.hpp:41-50). -/
def byteCountVals : List WVal → Nat
  | [] => 0
  | v :: vs => (valueSize v + byteCountVals vs) % sizeMod

/-- Store consecutive bytes at offset `pos` of the buffer (`std::copy_n` to a buffer
iterator). -/
def writeMem (pos : Nat) (bs : List Nat) : St (List Nat) PUnit := fun buf =>
  if pos + bs.length ≤ buf.length then
    (.ok ⟨⟩, buf.take pos ++ bs ++ buf.drop (pos + bs.length))
  else (.ub, buf)

/-- `_write_single_value` and `_write_single_encoded_value`
(io/byte_buffer_write.hpp:37-42, 44-49). -/
def writeSingle (host : Endian) (enc : Enc) (o : Obj) (pos : Nat) : St (List Nat) Nat := do
  writeMem pos (bytesOf host enc o)
  pure o.length

/-- `_write_single_range_value` (io/byte_buffer_write.hpp:51-68): `std::accumulate` over the
elements with the pair (bytes written, next position). -/
def writeRangeLoop (host : Endian) : List Obj → (written pos : Nat) → St (List Nat) Nat
  | [], written, _ => pure written
  | o :: os, written, pos => do
    let w ← writeSingle host .native o pos
    writeRangeLoop host os (written + w) (pos + o.length)

/-- `unchecked_write(iterator, value)` (io/byte_buffer_write.hpp:74-94). -/
def uncheckedWrite (host : Endian) (pos : Nat) : WVal → St (List Nat) Nat
  | .single enc o => writeSingle host enc o pos
  | .range _ elems => writeRangeLoop host elems 0 pos

/-- `_recursive_unsafe_write` (io/byte_buffer_write.hpp:100-109, 111-115). -/
def recursiveUnsafeWrite (host : Endian) : (pos : Nat) → List WVal → St (List Nat) Nat
  | _, [] => pure 0
  | pos, v :: vs => do
    let out ← uncheckedWrite host pos v
    let rest ← recursiveUnsafeWrite host (pos + valueSize v) vs
    pure ((out + rest) % sizeMod)

/-- `write(begin, end, values...)` on the sub-buffer from offset `start`
(io/byte_buffer_write.hpp:134-137), and `write(buffer, values...)` (123-130) for
`start = 0`.  A span whose begin lies behind its end is undefined. -/
def writeFrom (host : Endian) (start : Nat) (vs : List WVal) : St (List Nat) Nat := do
  let buf ← St.get
  if buf.length < start then
    St.ub
  else if buf.length - start < byteCountVals vs then
    St.throw (.outOfRange "Insufficient buffer space for write")
  else
    recursiveUnsafeWrite host start vs

/-- `write(buffer, values...)` (io/byte_buffer_write.hpp:123-130). -/
def write (host : Endian) (vs : List WVal) : St (List Nat) Nat := writeFrom host 0 vs

/-- `_try_write_single_value` / `_try_write_range_value` through the iterator or range form
of `try_write` (io/byte_buffer_write.hpp:145-163, 169-189), on the buffer from offset
`start`, undefined if that lies behind the end. -/
def tryWriteOne (host : Endian) (start : Nat) (v : WVal) : St (List Nat) (Result Nat WriteError) := do
  let buf ← St.get
  if buf.length < start then
    St.ub
  else if buf.length - start < valueSize v then
    pure (.error .insufficientBuffer)
  else do
    let n ← uncheckedWrite host start v
    pure (.value n)

/-- `_recursive_try_write` (io/byte_buffer_write.hpp:216-234, 238-255), behind the
multi-value `try_write` (300-312). -/
def recursiveTryWrite (host : Endian) : (start : Nat) → List WVal → St (List Nat) (Result Nat WriteError)
  | _, [] => pure (.value 0)
  | start, v :: vs => do
    let first ← tryWriteOne host start v
    match first with
    | .error e => pure (.error e)
    | .value n =>
      if vs.isEmpty then pure (.value n)
      else do
        let rest ← recursiveTryWrite host (start + valueSize v) vs
        match rest with
        | .error e => pure (.error e)
        | .value m => pure (.value ((n + m) % sizeMod))

/-- `try_write(buffer, values...)` (io/byte_buffer_write.hpp:169-176, 300-304). -/
def tryWrite (host : Endian) (vs : List WVal) : St (List Nat) (Result Nat WriteError) :=
  recursiveTryWrite host 0 vs

/-- `try_write_at(position, buffer, value)` (io/byte_buffer_write.hpp:193-210). -/
def tryWriteAt (host : Endian) (pos : Nat) (v : WVal) : St (List Nat) (Result Nat WriteError) := do
  let buf ← St.get
  if (pos + valueSize v) % sizeMod < pos then
    pure (.error .invalidPositionOffset)
  else if pos ≥ buf.length then
    pure (.error .insufficientBuffer)
  else do
    let r ← tryWriteOne host pos v
    match r with
    | .error e => pure (.error e)
    | .value n => pure (.value ((pos + n) % sizeMod))

/-- `_recursive_try_write_at` (io/byte_buffer_write.hpp:259-274), behind the multi-value
`try_write_at` (316-320). -/
def recursiveTryWriteAt (host : Endian) : (pos : Nat) → List WVal → St (List Nat) (Result Nat WriteError)
  | pos, [] => pure (.value pos)
  | pos, v :: vs => do
    let first ← tryWriteAt host pos v
    match first with
    | .error e => pure (.error e)
    | .value n => if vs.isEmpty then pure (.value n) else recursiveTryWriteAt host n vs

/-- `write_at(position, buffer, values...)` (io/byte_buffer_write.hpp:281-294). -/
def writeAt (host : Endian) (pos : Nat) (vs : List WVal) : St (List Nat) Nat := do
  let buf ← St.get
  let endPos := (pos + byteCountVals vs) % sizeMod
  if endPos < pos then
    St.throw (.invalidArgument "Buffer read position exceeds allowed value")
  else if endPos > buf.length then
    St.throw (.outOfRange "Insufficient buffer space for write")
  else do
    let n ← recursiveUnsafeWrite host pos vs
    pure ((pos + n) % sizeMod)

/-- `to_bytes(value)` (io/byte_buffer_write.hpp:341-349): a zeroed array of `sizeof(value)`
bytes, written to. -/
def toBytes (host : Endian) (enc : Enc) (o : Obj) : Outcome (List Nat) :=
  match (write host [.single enc o]).run (List.replicate o.length 0) with
  | (.ok _, out) => .ok out
  | (.throw e, _) => .throw e
  | (.ub, _) => .ub
  | (.terminate, _) => .terminate
  | (.diverge, _) => .diverge

/-- `try_to_bytes(value)` (io/byte_buffer_write.hpp:324-335). -/
def tryToBytes (host : Endian) (enc : Enc) (o : Obj) : Outcome (Result (List Nat) WriteError) :=
  match (tryWrite host [.single enc o]).run (List.replicate o.length 0) with
  | (.ok (.value _), out) => .ok (.value out)
  | (.ok (.error e), _) => .ok (.error e)
  | (.throw e, _) => .throw e
  | (.ub, _) => .ub
  | (.terminate, _) => .terminate
  | (.diverge, _) => .diverge

/-- `write_with_endian(buffer, value, endianness)` (io/byte_buffer_write.hpp:353-361), and
on the sub-buffer from offset `start` the iterator form (363-367). -/
def writeWithEndian (host : Endian) (start : Nat) (o : Obj) (e : Endian) : St (List Nat) Nat :=
  if Endian.little = e then writeFrom host start [.single .littleEndian o]
  else writeFrom host start [.single .bigEndian o]

end Wite.Io
