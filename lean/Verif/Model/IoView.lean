import Verif.Model.Io

/-!
# Model of `wite/io/byte_read_buffer_view.hpp`, `byte_write_buffer_view.hpp` and
`byte_stream.hpp`

A view is the buffer and the offset of its cursor.  Moving the cursor beyond the end of
the buffer is undefined behaviour.  The sizes of types are far below 2^63, so the
`ptrdiff_t` conversions of cursor distances do not change them.
-/

namespace Wite.Io

/-- `byte_read_buffer_view` (io/byte_read_buffer_view.hpp:34-40, 127-128). -/
structure ReadView where
  data : List Nat
  pos : Nat
  deriving DecidableEq, Repr

namespace ReadView

/-- One-argument constructor (io/byte_read_buffer_view.hpp:40). -/
def make (buf : List Nat) : ReadView := ⟨buf, 0⟩

/-- `unchecked_seek` (io/byte_read_buffer_view.hpp:69-71). -/
def uncheckedSeek (p : Nat) : St ReadView PUnit := fun v =>
  if p ≤ v.data.length then (.ok ⟨⟩, { v with pos := p }) else (.ub, v)

/-- `seek` (io/byte_read_buffer_view.hpp:49-56). -/
def seek (p : Nat) : St ReadView PUnit := do
  let v ← St.get
  if p > v.data.length then St.throw (.outOfRange "Cannot seek past end of buffer")
  else uncheckedSeek p

/-- `try_seek` (io/byte_read_buffer_view.hpp:60-67). -/
def trySeek (p : Nat) : St ReadView (Result Bool ReadError) := do
  let v ← St.get
  if p > v.data.length then pure (.error .invalidPositionOffset)
  else do
    uncheckedSeek p
    pure (.value true)

/-- Two-argument constructor (io/byte_read_buffer_view.hpp:44-47). -/
def makeAt (buf : List Nat) (offset : Nat) : Outcome ReadView :=
  match (seek offset).run (make buf) with
  | (.ok _, v) => .ok v
  | (.throw e, _) => .throw e
  | (.ub, _) => .ub
  | (.terminate, _) => .terminate
  | (.diverge, _) => .diverge

/-- `try_make_byte_read_buffer_view` (io/byte_read_buffer_view.hpp:141-151). -/
def tryMake (buf : List Nat) (offset : Nat) : Outcome (Result ReadView ReadError) :=
  match (trySeek offset).run (make buf) with
  | (.ok (.value _), v) => .ok (.value v)
  | (.ok (.error e), _) => .ok (.error e)
  | (.throw e, _) => .throw e
  | (.ub, _) => .ub
  | (.terminate, _) => .terminate
  | (.diverge, _) => .diverge

/-- `read_position` (io/byte_read_buffer_view.hpp:73). -/
def readPosition (v : ReadView) : Nat := v.pos

/-- `std::span{_get_pos, _data.end()}`. -/
def rest : St ReadView (List Nat) := do
  let v ← St.get
  St.lift (spanFrom v.data v.pos)

/-- `std::advance(_get_pos, n)`. -/
def advance (n : Nat) : St ReadView PUnit := fun v =>
  if v.pos + n ≤ v.data.length then (.ok ⟨⟩, { v with pos := v.pos + n }) else (.ub, v)

/-- `read<Ts...>` (io/byte_read_buffer_view.hpp:77-83). -/
def read (host : Endian) (ts : List Ty) : St ReadView (List Obj) := do
  let sp ← rest
  let out ← St.lift (Io.read host ts sp)
  advance (byteCountTys ts)
  pure out

/-- `read_range` into a range of `n` elements (io/byte_read_buffer_view.hpp:85-91). -/
def readRange (host : Endian) (t : Ty) (n : Nat) : St ReadView (List Obj) := do
  let sp ← rest
  let out ← St.lift (Io.readRange host t n sp)
  advance (byteCountRange t n)
  pure out

/-- `read_with_endianness` (io/byte_read_buffer_view.hpp:93-99). -/
def readWithEndianness (host : Endian) (size : Nat) (e : Endian) : St ReadView (List Obj) := do
  let sp ← rest
  let out ← St.lift (Io.readWithEndian host size sp e)
  advance size
  pure out

/-- `try_read<Ts...>` (io/byte_read_buffer_view.hpp:103-111). -/
def tryRead (host : Endian) (ts : List Ty) : St ReadView (List (Result Obj ReadError)) := do
  let sp ← rest
  let out ← St.lift (recursiveTryRead host ts sp)
  let v ← St.get
  advance (min (byteCountTys ts) (v.data.length - v.pos))
  pure out

/-- `try_read_range` (io/byte_read_buffer_view.hpp:113-123). -/
def tryReadRange (host : Endian) (t : Ty) (n : Nat) : St ReadView (Result (List Obj) ReadError) := do
  let sp ← rest
  let out ← St.lift (Io.tryReadRange host t n sp)
  match out with
  | .value vs => do
    advance (byteCountRange t n)
    pure (.value vs)
  | .error e => do
    let v ← St.get
    St.set { v with pos := v.data.length }
    pure (.error e)

end ReadView

/-- `byte_write_buffer_view` (io/byte_write_buffer_view.hpp:33-39, 103-104). -/
structure WriteView where
  data : List Nat
  pos : Nat
  deriving DecidableEq, Repr

namespace WriteView

/-- One-argument constructor (io/byte_write_buffer_view.hpp:39). -/
def make (buf : List Nat) : WriteView := ⟨buf, 0⟩

/-- `unchecked_seek` (io/byte_write_buffer_view.hpp:68). -/
def uncheckedSeek (p : Nat) : St WriteView PUnit := fun v =>
  if p ≤ v.data.length then (.ok ⟨⟩, { v with pos := p }) else (.ub, v)

/-- `seek` (io/byte_write_buffer_view.hpp:48-55). -/
def seek (p : Nat) : St WriteView PUnit := do
  let v ← St.get
  if p > v.data.length then St.throw (.outOfRange "Cannot seek past end of buffer")
  else uncheckedSeek p

/-- `try_seek` (io/byte_write_buffer_view.hpp:59-66). -/
def trySeek (p : Nat) : St WriteView (Result Bool WriteError) := do
  let v ← St.get
  if p > v.data.length then pure (.error .invalidPositionOffset)
  else do
    uncheckedSeek p
    pure (.value true)

/-- Two-argument constructor (io/byte_write_buffer_view.hpp:43-46). -/
def makeAt (buf : List Nat) (offset : Nat) : Outcome WriteView :=
  match (seek offset).run (make buf) with
  | (.ok _, v) => .ok v
  | (.throw e, _) => .throw e
  | (.ub, _) => .ub
  | (.terminate, _) => .terminate
  | (.diverge, _) => .diverge

/-- `write_position` (io/byte_write_buffer_view.hpp:70). -/
def writePosition (v : WriteView) : Nat := v.pos

/-- Run a buffer operation on the buffer the view refers to. -/
def onBuffer {α : Type} (x : Nat → St (List Nat) α) : St WriteView α := fun v =>
  let r := x v.pos v.data
  (r.1, { v with data := r.2 })

/-- `std::advance(_put_pos, n)`. -/
def advance (n : Nat) : St WriteView PUnit := fun v =>
  if v.pos + n ≤ v.data.length then (.ok ⟨⟩, { v with pos := v.pos + n }) else (.ub, v)

/-- `write` (io/byte_write_buffer_view.hpp:74-80). -/
def write (host : Endian) (vs : List WVal) : St WriteView Nat := do
  let n ← onBuffer (fun pos => writeFrom host pos vs)
  advance n
  pure n

/-- `write_with_endian` (io/byte_write_buffer_view.hpp:82-88). -/
def writeWithEndian (host : Endian) (o : Obj) (e : Endian) : St WriteView Nat := do
  let n ← onBuffer (fun pos => Io.writeWithEndian host pos o e)
  advance n
  pure n

/-- `try_write` (io/byte_write_buffer_view.hpp:92-100). -/
def tryWrite (host : Endian) (vs : List WVal) : St WriteView (Result Nat WriteError) := do
  let r ← onBuffer (fun pos => recursiveTryWrite host pos vs)
  match r with
  | .value n => do
    advance n
    pure (.value n)
  | .error e => pure (.error e)

end WriteView

/-! ## Streams -/

/-- A byte stream that is both written and read (`std::stringstream`): all bytes ever
written, how many have been consumed, and whether an earlier read came up short
(`failbit`).  Writing to it always succeeds. -/
structure Stream where
  data : List Nat
  consumed : Nat
  failed : Bool
  deriving DecidableEq, Repr

namespace Stream

/-- `write(stream, value)` (io/byte_stream.hpp:36-40): `stream.write` of the object's
bytes; unformatted output does nothing on a failed stream. -/
def write (o : Obj) : St Stream PUnit := fun s =>
  if s.failed then (.ok ⟨⟩, s) else (.ok ⟨⟩, { s with data := s.data ++ o })

/-- `read<T>(stream)` for a type of `n` bytes (io/byte_stream.hpp:25-32): a zeroed object is
filled with as many bytes as are available; a short or failed read sets `failbit`, and a
stream that had already failed delivers nothing.  The value returned does not tell. -/
def read (n : Nat) : St Stream Obj := fun s =>
  if s.failed then (.ok (List.replicate n 0), s)
  else
    let got := (s.data.drop s.consumed).take n
    (.ok (got ++ List.replicate (n - got.length) 0),
      { s with consumed := s.consumed + got.length, failed := decide (got.length < n) })

end Stream

end Wite.Io
