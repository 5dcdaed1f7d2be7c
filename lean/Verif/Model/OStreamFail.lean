import Verif.Model.OStream
import Verif.Model.IoStream
import Verif.Model.FragmentString
import Verif.Model.State

/-!
# The insertion operators on streams that fail

`OStream.lean` models the operators of `core/io.hpp`, `geometry/io.hpp` and `maths/io.hpp` on a stream that takes
everything.  Here the device behind the stream takes only so many characters; then it either reports that it took fewer
than it was given, or its stream buffer throws.  The stream has the error bits and the exception mask of
`std::basic_ios`.

Two things are left to implementations and are parameters: the bits a formatted insertion sets when not
everything was taken (the standard says `failbit`, libstdc++ sets `badbit`), and whether inserting into a stream that is
not good sets `failbit` (the standard allows it).  Characters reach the device at once.
-/

namespace Wite

open Wite.Io.Ios

/-- What implementations differ in: the bits set by a short write, and the bits set by an insertion into a stream with the
given bits that is not good. -/
structure StreamLib where
  short : Bits
  sentry : Bits → Bits

/-- An output stream over a device that takes `room` more characters (`none`: any number) and ends as `ending` says. -/
structure FStream (C : Type) where
  os : OStream C
  room : Option Nat
  ending : Ending
  state : Bits
  mask : Bits

namespace FStream

variable {C : Type}

/-- How many of `n` characters the device takes. -/
def takes (n : Nat) (s : FStream C) : Nat :=
  match s.room with
  | none => n
  | some r => min n r

/-- `setstate`: sets the bits, and throws if a bit of the mask is set now. -/
def setState (b : Bits) : St (FStream C) Unit := fun s =>
  let s' := { s with state := s.state.or b }
  if s'.state.meets s'.mask then (.throw failure, s') else (.ok (), s')

/-- One formatted insertion ([ostream.formatted.reqmts]); `f` is what it does to a stream that takes everything. -/
def put (lib : StreamLib) (f : OStream C → OStream C) : St (FStream C) Unit := fun s =>
  if s.state.good then
    let text := (f s.os).out.drop s.os.out.length
    let k := s.takes text.length
    if k = text.length then (.ok (), { s with os := f s.os, room := s.room.map (· - k) })
    else
      let s' : FStream C := { s with os := { f s.os with out := s.os.out ++ text.take k }, room := s.room.map (· - k) }
      match s.ending with
      | .eof => setState lib.short s'
      | .throws e =>
        let t := { s' with state := s'.state.or ⟨false, false, true⟩ }
        if s'.mask.bad then (.throw e, t) else (.ok (), t)
  else setState (lib.sentry s.state) s

/-- Insertion of a string, string view or C string. -/
def putText (lib : StreamLib) (t : List C) : St (FStream C) Unit := put lib (OStream.insertText t)

/-- `operator<<` for UUIDs (core/io.hpp:20-24 and 28-32): the text is made before the stream is looked at. -/
def insertUuid (lib : StreamLib) (host : Io.Endian) (id : List Nat) : St (FStream Nat) Unit := do
  let t ← St.lift (Uuid.str host id 'D')
  putText lib t

/-- `operator<<` for indexes (core/io.hpp:36-40). -/
def insertIndex (lib : StreamLib) (idx : Nat) : St (FStream Nat) Unit := put lib (OStream.insertUnsigned (Index.value idx))

/-- `operator<<` for ids (core/io.hpp:44-48); `ins` is the insertion of the wrapped value. -/
def insertId {α : Type} (ins : α → St (FStream C) Unit) (id : Id α) : St (FStream C) Unit := ins id.deref

/-- The coordinates from `i` on, `n` of them (geometry/io.hpp:18-20 and 31-33). -/
def pointLoop {α : Type} (lib : StreamLib) (text : α → List Char) (p : Geometry.Point α) : Nat → Nat → St (FStream Char) Unit
  | _, 0 => pure ()
  | i, n + 1 => do
    putText lib ", ".toList
    let x ← St.lift (p.get i)
    putText lib (text x)
    pointLoop lib text p (i + 1) n

/-- `operator<<` for points (geometry/io.hpp:14-25 and 27-38). -/
def insertPoint {α : Type} (lib : StreamLib) (text : α → List Char) (p : Geometry.Point α) : St (FStream Char) Unit := do
  putText lib "[ ".toList
  let x ← St.lift (p.get 0)
  putText lib (text x)
  pointLoop lib text p 1 (p.dimensions - 1)
  putText lib " ]".toList

/-- `operator<<` for ranges (maths/io.hpp:14-32 and 34-51). -/
def insertRange {α : Type} {lb hb : Maths.Boundary} (lib : StreamLib) (text : α → List Char) (r : Maths.ValueRange α lb hb) :
    St (FStream Char) Unit := do
  putText lib (match lb with | .closed => "[ ".toList | .opened => "( ".toList)
  putText lib (text r.lo)
  putText lib ", ".toList
  putText lib (text r.hi)
  putText lib (match hb with | .closed => " ]".toList | .opened => " )".toList)

/-- `operator<<` for fragment strings (string/fragment_string.hpp:601-617). -/
def insertFragments (lib : StreamLib) : Str.FragStr C → St (FStream C) Unit
  | [] => pure ()
  | f :: fs => do
    putText lib f.chars
    insertFragments lib fs

end FStream

end Wite
