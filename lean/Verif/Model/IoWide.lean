import Verif.Model.Io

/-!
# Model of reads from buffers whose elements may be wider than a byte

File: io/byte_buffer_read.hpp, with the concepts of io/concepts.hpp:22-43 and
common/concepts.hpp:20-21.

The concepts `byte_range_like`, `byte_iterator_like` and `byte_like` contain the expressions
`is_byte_like_v<...>` and `sizeof(...) == 1` as simple requirements: a compiler checks that
they are valid, not that they are true.  Every read function can therefore be called on a
range of elements of any width.  Here an element is the list of its bytes in memory order, a
buffer is a list of elements of `width` bytes each, `buffer.size()` counts elements and
iterators are element offsets.  Two accesses are undefined: reading an element that is not in
the buffer, and storing bytes that are not in the object being read into.

(The write functions do reject such buffers: `unchecked_write` has a `static_assert`,
io/byte_buffer_write.hpp:79.)
-/

namespace Wite.IoWide

open Wite.Io

/-- An element of a buffer: its bytes in memory order. -/
abbrev Elem := List Nat

/-- Assigning an element through a pointer that points `off` bytes into an object. -/
def storeElem (o : Obj) (off : Nat) (e : Elem) : Outcome Obj :=
  if off + e.length ≤ o.length then .ok (o.take off ++ e ++ o.drop (off + e.length)) else .ub

/-- `std::copy_n(it, n, p)` with `p` the address of the object as a pointer to elements
(io/byte_buffer_read.hpp:49; 44 with the pointers of io/encoding.hpp:82 and 122): the `k`-th
element goes `k * width` bytes into the object. -/
def copyUp (width : Nat) : List Elem → (k : Nat) → Obj → Outcome Obj
  | [], _, o => .ok o
  | e :: es, k, o => do
    let o' ← storeElem o (k * width) e
    copyUp width es (k + 1) o'

/-- `std::copy_n(it, n, std::make_reverse_iterator(std::next(p, n)))`
(io/byte_buffer_read.hpp:44 with the iterators of io/encoding.hpp:84 and 120): elements are
stored from the far end; `left` elements are still to come. -/
def copyDown (width : Nat) : List Elem → (left : Nat) → Obj → Outcome Obj
  | [], _, o => .ok o
  | _ :: _, 0, _ => .ub
  | e :: es, left + 1, o => do
    let o' ← storeElem o (left * width) e
    copyDown width es left o'

/-- `std::next(p, n)` for a pointer to elements at the start of the object: it must not lead
past the end of the object (io/encoding.hpp:84, 120). -/
def nextInto (width n : Nat) (o : Obj) : Outcome Unit :=
  if n * width ≤ o.length then .ok () else .ub

/-- The copy into the object, for the three ways a type is laid out
(io/byte_buffer_read.hpp:44, 49; io/encoding.hpp:78-87, 115-124). -/
def copyIn (host : Endian) (width : Nat) (enc : Enc) (es : List Elem) (o : Obj) : Outcome Obj :=
  match enc, host with
  | .native, _ => copyUp width es 0 o
  | .littleEndian, .little => copyUp width es 0 o
  | .bigEndian, .big => copyUp width es 0 o
  | .littleEndian, .big => do
    nextInto width o.length o
    copyDown width es o.length o
  | .bigEndian, .little => do
    nextInto width o.length o
    copyDown width es o.length o

/-- `n` consecutive elements at offset `pos` of the buffer. -/
def readElems (buf : List Elem) (pos n : Nat) : Outcome (List Elem) :=
  if pos + n ≤ buf.length then .ok ((buf.drop pos).take n) else .ub

/-- `std::span{std::next(buffer.begin(), pos), buffer.end()}`. -/
def spanFrom (buf : List Elem) (pos : Nat) : Outcome (List Elem) :=
  if pos ≤ buf.length then .ok (buf.drop pos) else .ub

/-- `unchecked_read` (io/byte_buffer_read.hpp:37-52): as many elements as the type has bytes
are copied into a value-initialised object. -/
def uncheckedRead (host : Endian) (width : Nat) (t : Ty) (buf : List Elem) (pos : Nat) :
    Outcome (Obj × Nat) := do
  let es ← readElems buf pos t.size
  let o ← copyIn host width t.enc es (List.replicate t.size 0)
  pure (o, pos + t.size)

/-- `_recursive_read` (io/byte_buffer_read.hpp:58-70). -/
def recursiveRead (host : Endian) (width : Nat) : List Ty → List Elem → Outcome (List Obj)
  | [], _ => .ok []
  | t :: ts, buf => do
    let (v, next) ← uncheckedRead host width t buf 0
    let rest ← spanFrom buf next
    let vs ← recursiveRead host width ts rest
    pure (v :: vs)

/-- `read<Ts...>(buffer)` (io/byte_buffer_read.hpp:77-84): the number of bytes asked for is
compared with the number of elements. -/
def read (host : Endian) (width : Nat) (ts : List Ty) (buf : List Elem) : Outcome (List Obj) :=
  if byteCountTys ts > buf.length then
    .throw (.outOfRange "Insufficient buffer space for read")
  else
    recursiveRead host width ts buf

/-- The `std::ranges::generate` of `read_range` and `try_read_range`
(io/byte_buffer_read.hpp:95-103, 162-170). -/
def generateRead (host : Endian) (width : Nat) (t : Ty) (buf : List Elem) :
    (n : Nat) → (pos : Nat) → Outcome (List Obj)
  | 0, _ => .ok []
  | n + 1, pos => do
    let (v, next) ← uncheckedRead host width t buf pos
    let vs ← generateRead host width t buf n next
    pure (v :: vs)

/-- `read_range(buffer, range)` for a range of `n` values (io/byte_buffer_read.hpp:88-106). -/
def readRange (host : Endian) (width : Nat) (t : Ty) (n : Nat) (buf : List Elem) :
    Outcome (List Obj) :=
  if byteCountRange t n > buf.length then
    .throw (.outOfRange "Insufficient buffer space for read")
  else
    generateRead host width t buf n 0

/-- `read_at<Ts...>(position, buffer)` (io/byte_buffer_read.hpp:110-121). -/
def readAt (host : Endian) (width : Nat) (ts : List Ty) (pos : Nat) (buf : List Elem) :
    Outcome (List Obj) :=
  if (pos + byteCountTys ts) % sizeMod < pos then
    .throw (.invalidArgument "Buffer read position exceeds allowed value")
  else if pos > buf.length then
    .throw (.outOfRange "Insufficient buffer space for read")
  else do
    let sp ← spanFrom buf pos
    read host width ts sp

/-- `read_range_at` (io/byte_buffer_read.hpp:125-137). -/
def readRangeAt (host : Endian) (width : Nat) (t : Ty) (n : Nat) (pos : Nat) (buf : List Elem) :
    Outcome (List Obj) :=
  if (pos + byteCountRange t n) % sizeMod < pos then
    .throw (.invalidArgument "Buffer read position exceeds allowed value")
  else if pos > buf.length then
    .throw (.outOfRange "Insufficient buffer space for read")
  else do
    let sp ← spanFrom buf pos
    readRange host width t n sp

/-- `try_read<T>(buffer)` (io/byte_buffer_read.hpp:143-151, 177-185). -/
def tryRead (host : Endian) (width : Nat) (t : Ty) (buf : List Elem) :
    Outcome (Result Obj ReadError) :=
  if buf.length < t.size then .ok (.error .insufficientBuffer)
  else do
    let (v, _) ← uncheckedRead host width t buf 0
    pure (.value v)

/-- `try_read_range(buffer, range)` (io/byte_buffer_read.hpp:155-173). -/
def tryReadRange (host : Endian) (width : Nat) (t : Ty) (n : Nat) (buf : List Elem) :
    Outcome (Result (List Obj) ReadError) :=
  if buf.length < (n * t.size) % sizeMod then .ok (.error .insufficientBuffer)
  else do
    let vs ← generateRead host width t buf n 0
    pure (.value vs)

/-- `try_read_at<T>(position, buffer)` (io/byte_buffer_read.hpp:189-201, 205-217). -/
def tryReadAt (host : Endian) (width : Nat) (t : Ty) (pos : Nat) (buf : List Elem) :
    Outcome (Result Obj ReadError) :=
  if (pos + t.size) % sizeMod < pos then .ok (.error .invalidPositionOffset)
  else if pos ≥ buf.length then .ok (.error .insufficientBuffer)
  else do
    let sp ← spanFrom buf pos
    tryRead host width t sp

/-- `try_read_range_at` (io/byte_buffer_read.hpp:221-233). -/
def tryReadRangeAt (host : Endian) (width : Nat) (t : Ty) (n : Nat) (pos : Nat)
    (buf : List Elem) : Outcome (Result (List Obj) ReadError) :=
  if (pos + byteCountRange t n) % sizeMod < pos then .ok (.error .invalidPositionOffset)
  else if pos ≥ buf.length then .ok (.error .insufficientBuffer)
  else do
    let sp ← spanFrom buf pos
    tryReadRange host width t n sp

end Wite.IoWide
