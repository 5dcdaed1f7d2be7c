import Verif.Model.IoStream

/-!
# io/byte_stream.hpp on one stream that is both read and written

A `std::stringstream`, which has a position for reading and one for writing, or a `std::fstream` opened for input and output, which
has one position for both and must be positioned between reading and writing ([filebuf.virtuals]).  In both there is one state: what
fails in reading also stops writing.  Between the calls of the library the user may call `clear`, `seekg` and `seekp` of the stream.

Simplifications: there is room and memory for everything; what is written is in the file at once, which nobody else touches; of the
ways to position, that to a distance from the beginning.
-/

namespace Wite.Io.Both

open Wite.Io.Ios (Bits failure)

/-- The class of the stream that is given to the functions of io/byte_stream.hpp:25-40. -/
inductive Kind where
  | string
  | file
  deriving DecidableEq, Repr

/-- What was done last with a file since it was positioned (by io/byte_stream.hpp:28 and 39). -/
inductive Last where
  | neither
  | input
  | output
  deriving DecidableEq, Repr

/-- A stream that can be read (io/byte_stream.hpp:25-32) and written (io/byte_stream.hpp:36-40): its contents, where the next read and the
next write take place, its state and `exceptions()`. -/
structure Stream where
  kind : Kind
  data : List Nat
  getPos : Nat
  putPos : Nat
  last : Last
  state : Bits
  mask : Bits
  deriving DecidableEq, Repr

/-- `setstate`: sets the bits, and throws if a bit of the mask is set now (called by `stream.read`, io/byte_stream.hpp:28). -/
def Stream.setState (b : Bits) (s : Stream) : Outcome Unit × Stream :=
  let s' := { s with state := s.state.or b }
  if s'.state.meets s'.mask then (.throw failure, s') else (.ok (), s')

/-- The contents after the bytes have been written at a position (io/byte_stream.hpp:39): over what is there, and on; a gap in a file
reads as zeros. -/
def store (data : List Nat) (pos : Nat) (bs : List Nat) : List Nat :=
  data.take pos ++ List.replicate (pos - data.length) 0 ++ bs ++ data.drop (pos + bs.length)

/-- `write(stream, value)` (io/byte_stream.hpp:36-40): nothing if the stream is not good; undefined if a file was read last and not
positioned since. -/
def write (o : Obj) : St Stream Unit := fun s =>
  if s.state.good then
    match s.kind with
    | .string => (.ok (), { s with data := store s.data s.putPos o, putPos := s.putPos + o.length })
    | .file =>
      if s.last = .input then (.ub, s)
      else (.ok (), { s with data := store s.data s.putPos o, putPos := s.putPos + o.length, getPos := s.putPos + o.length, last := .output })
  else (.ok (), s)

/-- What `stream.read` stores over the zeroed object (io/byte_stream.hpp:27-28); reading to the end of a file allows writing next. -/
def readSome (n : Nat) : St Stream (List Nat) := fun s =>
  if s.state.good then
    if s.kind = .file ∧ s.last = .output then (.ub, s)
    else
      let got := (s.data.drop s.getPos).take n
      let s' := match s.kind with
        | .string => { s with getPos := s.getPos + got.length }
        | .file => { s with getPos := s.getPos + got.length, putPos := s.getPos + got.length, last := .input }
      if got.length = n then (.ok got, s')
      else
        match Stream.setState ⟨true, true, false⟩ { s' with last := .neither } with
        | (.ok _, t) => (.ok got, t)
        | (_, t) => (.throw failure, t)
  else
    match s.setState ⟨false, true, false⟩ with
    | (.ok _, t) => (.ok [], t)
    | (_, t) => (.throw failure, t)

/-- `read<T>(stream)` for a type of `n` bytes (io/byte_stream.hpp:25-32). -/
def read (n : Nat) : St Stream Obj := do
  let got ← readSome n
  pure (got ++ (List.replicate n 0).drop got.length)

/-- The user calls `clear()` after functions of io/byte_stream.hpp:25-40. -/
def clear : St Stream Unit := fun s => (.ok (), { s with state := .none })

/-- Whether the stream can be positioned there: a string only within its contents (what io/byte_stream.hpp:39 has written). -/
def Stream.reaches (s : Stream) (p : Nat) : Bool :=
  match s.kind with
  | .string => decide (p ≤ s.data.length)
  | .file => true

/-- The user calls `seekg(p)` before `read` (io/byte_stream.hpp:25-32): forgets the end of file, and does nothing else if the stream has
failed; moves also the position for writing in a file. -/
def seekg (p : Nat) : St Stream Unit := fun s =>
  let s1 := { s with state := { s.state with eof := false } }
  if s1.state.meets s1.mask then (.throw failure, s1)
  else if s1.state.failed then s1.setState ⟨false, true, false⟩
  else if s1.reaches p then
    match s.kind with
    | .string => (.ok (), { s1 with getPos := p })
    | .file => (.ok (), { s1 with getPos := p, putPos := p, last := .neither })
  else s1.setState ⟨false, true, false⟩

/-- The user calls `seekp(p)` before `write` (io/byte_stream.hpp:36-40): nothing if the stream has failed; moves also the position for
reading in a file. -/
def seekp (p : Nat) : St Stream Unit := fun s =>
  if s.state.failed then (.ok (), s)
  else if s.reaches p then
    match s.kind with
    | .string => (.ok (), { s with putPos := p })
    | .file => (.ok (), { s with getPos := p, putPos := p, last := .neither })
  else s.setState ⟨false, true, false⟩

/-- What a program does with the stream: calls of io/byte_stream.hpp:25-32 and 36-40, and of the stream itself. -/
inductive Op where
  | write (o : Obj)
  | read (n : Nat)
  | clear
  | seekg (p : Nat)
  | seekp (p : Nat)
  deriving DecidableEq, Repr

/-- One of them, with the value read if there is one (io/byte_stream.hpp:25-40). -/
def Op.run : Op → St Stream (List Obj)
  | .write o => do Both.write o; pure []
  | .read n => do let o ← Both.read n; pure [o]
  | .clear => do Both.clear; pure []
  | .seekg p => do Both.seekg p; pure []
  | .seekp p => do Both.seekp p; pure []

/-- A program, with the values read in order; an exception ends it (io/byte_stream.hpp:25-40). -/
def runAll : List Op → St Stream (List Obj)
  | [] => pure []
  | op :: ops => do
    let a ← op.run
    let b ← runAll ops
    pure (a ++ b)

end Wite.Io.Both
