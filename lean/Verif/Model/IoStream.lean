import Verif.Model.Io
import Verif.Model.State

/-!
# io/byte_stream.hpp on streams that fail

`IoView.lean` models the two functions on a `std::stringstream`.  Here the stream has the error bits
and the exception mask of `std::basic_ios`, the source ends early or throws, and the sink runs full.

Simplifications: a write reaches the device at once (a buffered stream may report an error only when
it is flushed); when the stream buffer of the source throws, the bytes that came before the exception
have been stored, as common implementations do.
-/

namespace Wite.Io.Ios

/-- `std::ios_base::iostate`. -/
structure Bits where
  eof : Bool
  fail : Bool
  bad : Bool
  deriving DecidableEq, Repr

namespace Bits

/-- `goodbit`: no bit is set. -/
def none : Bits := ⟨false, false, false⟩

/-- `good()`. -/
def good (s : Bits) : Bool := !s.eof && !s.fail && !s.bad

/-- `fail()`: `failbit` or `badbit` is set. -/
def failed (s : Bits) : Bool := s.fail || s.bad

/-- `a | b`. -/
def or (a b : Bits) : Bits := ⟨a.eof || b.eof, a.fail || b.fail, a.bad || b.bad⟩

/-- Whether `a & b` is not zero. -/
def meets (a b : Bits) : Bool := (a.eof && b.eof) || (a.fail && b.fail) || (a.bad && b.bad)

end Bits

/-- `std::ios_base::failure`. -/
def failure : Exc := .user 0

/-- How a source ends: with end of file, or with an exception thrown by its stream buffer. -/
inductive Ending where
  | eof
  | throws (e : Exc)
  deriving DecidableEq, Repr

/-- An input stream: the bytes it will deliver, how it ends, its state and `exceptions()`. -/
structure IStream where
  left : List Nat
  ending : Ending
  state : Bits
  mask : Bits
  deriving DecidableEq, Repr

/-- `setstate`: sets the bits, and throws if a bit of the mask is set now. -/
def IStream.setState (b : Bits) (s : IStream) : Outcome Unit × IStream :=
  let s' := { s with state := s.state.or b }
  if s'.state.meets s'.mask then (.throw failure, s') else (.ok (), s')

/-- `stream.read(p, n)` ([istream.unformatted]): what is stored at `p`, if anything. -/
def IStream.readSome (n : Nat) : St IStream (List Nat) := fun s =>
  if s.state.good then
    let got := s.left.take n
    let s' := { s with left := s.left.drop n }
    if got.length = n then (.ok got, s')
    else
      match s.ending with
      | .eof =>
        match s'.setState ⟨true, true, false⟩ with
        | (.ok _, t) => (.ok got, t)
        | (_, t) => (.throw failure, t)
      | .throws e =>
        let t := { s' with state := s'.state.or ⟨false, false, true⟩ }
        if s'.mask.bad then (.throw e, t) else (.ok got, t)
  else
    match s.setState ⟨false, true, false⟩ with
    | (.ok _, t) => (.ok [], t)
    | (_, t) => (.throw failure, t)

/-- `read<T>(stream)` for a type of `n` bytes (io/byte_stream.hpp:25-32): a zeroed object, over which the
bytes read are stored. -/
def read (n : Nat) : St IStream Obj := do
  let got ← IStream.readSome n
  pure (got ++ (List.replicate n 0).drop got.length)

/-- An output stream: the bytes that arrived, how many more the device takes (`none`: any number), its
state and `exceptions()`. -/
structure OStream where
  out : List Nat
  room : Option Nat
  state : Bits
  mask : Bits
  deriving DecidableEq, Repr

/-- How many of `n` bytes the device takes. -/
def OStream.takes (n : Nat) (s : OStream) : Nat :=
  match s.room with
  | none => n
  | some r => min n r

/-- `write(stream, value)` (io/byte_stream.hpp:36-40): `stream.write` ([ostream.unformatted]) of the bytes
of the object; does nothing if the stream is not good, sets `badbit` if not all bytes could be
written. -/
def write (o : Obj) : St OStream Unit := fun s =>
  if s.state.good then
    let k := s.takes o.length
    let s' := { s with out := s.out ++ o.take k, room := s.room.map (· - k) }
    if k = o.length then (.ok (), s')
    else
      let t := { s' with state := s'.state.or ⟨false, false, true⟩ }
      if t.state.meets t.mask then (.throw failure, t) else (.ok (), t)
  else (.ok (), s)

/-- Several reads, one after another; an exception ends them. -/
def readAll : List Nat → St IStream (List Obj)
  | [] => pure []
  | n :: ns => do
    let o ← read n
    let os ← readAll ns
    pure (o :: os)

/-- Several writes, one after another; an exception ends them. -/
def writeAll : List Obj → St OStream Unit
  | [] => pure ()
  | o :: os => do
    write o
    writeAll os

end Wite.Io.Ios
