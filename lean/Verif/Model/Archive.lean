import Verif.Model.IoLayout
import Verif.Model.IoFile
import Verif.Model.Hexlify
import Verif.Model.Split
import Verif.Model.Join

/-!
# Nested data under UUIDs, kept as text in a file

The programs of a user who keeps nested data (as in `Model/IoLayout.lean`), each piece under a UUID, in a text file with one line
for each: the UUID, a separator and the hexadecimal digits of the bytes of the data.  Everything is done by functions of the library:
`write` and `read` of the views, `hexlify` and `unhexlify`, the text and the constructor of `uuid`, `join` and `split`, `io::write` and
`io::read` of files.  The rest is the user's.

Simplified: memory does not run out; a file is named by a number (as in `Model/IoFile.lean`); what is behind the parser's buffer of a
`uuid` (see `Model/Uuid.lean`) is given as a function of the text that is parsed.
-/

namespace Wite.Archive

open Wite.Io Wite.Layouts

/-- Something for each element; the user's loop, with the results in a `std::vector`. -/
def each {α β : Type} (f : α → Outcome β) : List α → Outcome (List β)
  | [] => .ok []
  | x :: xs => do
    let y ← f x
    let ys ← each f xs
    pure (y :: ys)

/-- The data through a `byte_write_buffer_view` of a buffer of `cap` zero bytes, and the part of the buffer that was written
(io/byte_write_buffer_view.hpp:74-80). -/
def packed (host : Endian) (cap : Nat) (l : Layout) (d : l.Data) : Outcome (List Nat) :=
  let r := (put host l d).run ⟨List.replicate cap 0, 0⟩
  do
    let _ ← r.1
    pure (r.2.data.take r.2.pos)

/-- A line: `join({id.str(f), hexlify(bytes)}, sep)` (core/uuid.hpp:96, binascii/hexlify.hpp:370-385, string/join.hpp:42-70). -/
def line (host : Endian) (f : Char) (sep cap : Nat) (l : Layout) (r : List Nat × l.Data) : Outcome (List Nat) := do
  let key ← Uuid.str host r.1 f
  let body ← packed host cap l r.2
  let digits ← Hex.hexlify body
  Join.join 0 [key, digits] sep

/-- All lines, joined with `nl` and written to the file (string/join.hpp:42-70, io/byte_buffer_file.hpp:135-145). -/
def save (host : Endian) (f : Char) (sep nl cap : Nat) (l : Layout) (os : File.Os) (path : Nat) (rs : List (List Nat × l.Data)) :
    St File.Fs PUnit := do
  let lines ← St.lift (each (line host f sep cap l) rs)
  let text ← St.lift (Join.join 0 lines nl)
  File.write os path text

/-- The exception of the user's program for a line that does not have two parts. -/
def badLine : Exc := .user 1

/-- The exception of the user's program for bytes that are left over. -/
def leftOver : Exc := .user 2

/-- The data of some bytes, through a `byte_read_buffer_view` (io/byte_read_buffer_view.hpp:77-83); all bytes have to be used up. -/
def unpacked (host : Endian) (l : Layout) (bytes : List Nat) : Outcome l.Data :=
  let r := (get host l).run ⟨bytes, 0⟩
  do
    let d ← r.1
    if r.2.pos = r.2.data.length then pure d else .throw leftOver

/-- A line taken apart: `split(line, sep)`, `uuid{parts[0], f}` and `unhexlify(parts[1])` (string/split.hpp:117-122,
binascii/hexlify.hpp:391-401, core/uuid.hpp:79-86). -/
def recordOf (host : Endian) (f : Char) (sep : Nat) (l : Layout) (behind : List Nat → List Nat) (s : List Nat) :
    Outcome (List Nat × l.Data) :=
  match Split.split s sep .keepEmpty with
  | [key, digits] => do
    let u ← Uuid.ofString key f (behind key)
    let bytes ← Hex.unhexlify digits
    let d ← unpacked host l bytes
    pure (u, d)
  | _ => .throw badLine

/-- The file read (io/byte_buffer_file.hpp:86-97) and split at `nl`, without empty lines, and all lines taken apart. -/
def load (host : Endian) (f : Char) (sep nl : Nat) (l : Layout) (behind : List Nat → List Nat) (os : File.Os) (path : Nat)
    (fs : File.Fs) : Outcome (List (List Nat × l.Data)) := do
  let text ← File.read os path none fs
  each (recordOf host f sep l behind) (Split.split text nl .dropEmpty)

end Wite.Archive
