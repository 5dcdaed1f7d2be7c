import Verif.Model.IoStream

/-!
# io/byte_stream.hpp on output streams with a buffer

`IoStream.lean` has streams whose device gets every byte at once.  A `std::ofstream` keeps bytes in its buffer and gives them to the
device when it likes, when it is flushed and when it is closed, which its destructor does too.

When the buffer is emptied is up to the implementation: `Policy.keep` says how many bytes stay in the buffer, given how many were there and
how many come.  What is in the buffer after the device refused bytes is not specified either (`Policy.rest`).  The device takes some number
of bytes and refuses all others.

Simplifications: nothing else writes to the file, and it is not positioned; stream buffers report that the device is full and do not throw;
`tie` is not used; a write to a stream that is not good changes nothing ([ostream.sentry] allows it to set `failbit`).
-/

namespace Wite.Io.Buffered

open Wite.Io.Ios (Bits failure)

/-- What the implementation of the stream that is given to `write` (io/byte_stream.hpp:36-40) may choose. -/
structure Policy where
  /-- How many bytes stay in the buffer, given how many there were and how many are written. -/
  keep : Nat → Nat → Nat
  /-- What stays in the buffer when the device refused something, given all that should have been written. -/
  rest : List Nat → List Nat

/-- The stream given to `write` (io/byte_stream.hpp:36-40): what is in the file, what is in the buffer, how many more bytes the device takes
(`none`: any number), its state, `exceptions()` and whether `unitbuf` is set. -/
structure Stream where
  file : List Nat
  kept : List Nat
  room : Option Nat
  state : Bits
  mask : Bits
  unit : Bool
  deriving DecidableEq, Repr

/-- A new stream of an empty file, into which nothing has been written yet (by io/byte_stream.hpp:36-40). -/
def fresh (room : Option Nat) (mask : Bits) (unit : Bool) : Stream := ⟨[], [], room, .none, mask, unit⟩

/-- How many of `n` bytes the device takes. -/
def Stream.takes (n : Nat) (s : Stream) : Nat :=
  match s.room with
  | none => n
  | some r => min n r

/-- Give bytes to the device, of which the last `k` stay in the buffer; whether it took them (what `stream.write` of
io/byte_stream.hpp:39 and the synchronisations come to). -/
def Stream.send (p : Policy) (bs : List Nat) (k : Nat) (s : Stream) : Bool × Stream :=
  let out := bs.take (bs.length - k)
  let n := s.takes out.length
  let s' := { s with file := s.file ++ out.take n, room := s.room.map (· - n) }
  if n = out.length then (true, { s' with kept := bs.drop (bs.length - k) })
  else (false, { s' with kept := p.rest bs })

/-- `pubsync`: empty the buffer (after io/byte_stream.hpp:39). -/
def Stream.sync (p : Policy) (s : Stream) : Bool × Stream := s.send p s.kept 0

/-- `setstate`: sets the bits, and throws if a bit of the mask is set now (called by `stream.write`, io/byte_stream.hpp:39). -/
def Stream.setState (b : Bits) (s : Stream) : Outcome Unit × Stream :=
  let s' := { s with state := s.state.or b }
  if s'.state.meets s'.mask then (.throw failure, s') else (.ok (), s')

/-- `badbit`. -/
def badbit : Bits := ⟨false, false, true⟩

/-- `failbit`. -/
def failbit : Bits := ⟨false, true, false⟩

/-- `write(stream, value)` (io/byte_stream.hpp:36-40): `stream.write` ([ostream.unformatted]).  With `unitbuf` the stream is synchronised
when the sentry is destroyed; if that fails, `badbit` is set without an exception ([ostream.sentry]). -/
def write (p : Policy) (o : Obj) : St Stream Unit := fun s =>
  if s.state.good then
    match s.send p (s.kept ++ o) (p.keep s.kept.length o.length) with
    | (true, s') =>
      if s'.unit then
        match s'.sync p with
        | (true, t) => (.ok (), t)
        | (false, t) => (.ok (), { t with state := t.state.or badbit })
      else (.ok (), s')
    | (false, s') => s'.setState badbit
  else (.ok (), s)

/-- The user calls `flush()` ([ostream.unformatted]) after `write` (io/byte_stream.hpp:36-40): nothing if the stream is not good. -/
def flush (p : Policy) : St Stream Unit := fun s =>
  if s.state.good then
    match s.sync p with
    | (true, s') => (.ok (), s')
    | (false, s') => s'.setState badbit
  else (.ok (), s)

/-- The user calls `close()` ([ofstream.members], [filebuf.members]) after `write` (io/byte_stream.hpp:36-40): whatever the state, the buffer is
emptied and the file closed; `failbit` is set if that fails. -/
def close (p : Policy) : St Stream Unit := fun s =>
  match s.sync p with
  | (true, s') => (.ok (), s')
  | (false, s') => s'.setState failbit

/-- The destructor of the stream ([filebuf.cons]), after `write` (io/byte_stream.hpp:36-40): closes the file and reports nothing. -/
def destroy (p : Policy) (s : Stream) : List Nat := (s.sync p).2.file

/-- What a program does with the stream: `write` of io/byte_stream.hpp:36-40 and `flush`. -/
inductive Op where
  | write (o : Obj)
  | flush
  deriving DecidableEq, Repr

/-- One of them (io/byte_stream.hpp:36-40). -/
def Op.run (p : Policy) : Op → St Stream Unit
  | .write o => Buffered.write p o
  | .flush => Buffered.flush p

/-- A program; an exception ends it (io/byte_stream.hpp:36-40). -/
def runAll (p : Policy) : List Op → St Stream Unit
  | [] => pure ()
  | op :: ops => do
    op.run p
    runAll p ops

/-- The bytes of all values a program writes (io/byte_stream.hpp:36-40). -/
def bytes : List Op → List Nat
  | [] => []
  | .write o :: ops => o ++ bytes ops
  | .flush :: ops => bytes ops

/-- No buffer: `pubsetbuf(0, 0)` before `write` (io/byte_stream.hpp:36-40). -/
def unbuffered : Policy := ⟨fun _ _ => 0, fun _ => []⟩

/-- A buffer of `n` bytes which is emptied when the next value does not fit (the device then gets all of it), for examples of `write`
(io/byte_stream.hpp:36-40). -/
def whenFull (n : Nat) : Policy := ⟨fun held new => if held + new ≤ n then held + new else 0, fun bs => bs⟩

end Wite.Io.Buffered
