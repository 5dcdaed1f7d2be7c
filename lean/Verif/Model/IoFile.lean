import Verif.Model.Io

/-!
# Model of `wite/io/byte_buffer_file.hpp`

The file system maps paths to contents.  What the operating system does is chosen by an
environment `Os`: whether `fopen` succeeds, how many bytes of a `fwrite` reach the file and
how many bytes an `fread` delivers (the C standard allows both to fall short).  Simplified:
paths are opaque (`path.string()` never fails), `ftell` succeeds on a regular file, memory
allocation succeeds, `fclose` loses nothing beyond what `fwrite` lost.
-/

namespace Wite.Io.File

/-- Contents of every file; `none` where there is no file. -/
abbrev Fs := Nat → Option (List Nat)

/-- Choices of the operating system for one library call. -/
structure Os where
  /-- `fopen(path, "wb")` succeeds. -/
  openWrite : Bool
  /-- `fopen(path, "rb")` succeeds for an existing file (it fails for a missing one). -/
  openRead : Bool
  /-- how many of the bytes passed to `fwrite` reach the file, at most -/
  accept : Nat
  /-- how many bytes an `fread` delivers, at most -/
  deliver : Nat
  deriving DecidableEq, Repr

/-- Replace the content of one file. -/
def Fs.put (fs : Fs) (path : Nat) (c : List Nat) : Fs := fun p => if p = path then some c else fs p

/-- `get_write_file_pointer` (io/byte_buffer_file.hpp:31-39, 49-51): `fopen` with mode "wb"
creates the file or truncates it to zero length. -/
def openWrite (os : Os) (path : Nat) (fs : Fs) : Option Fs :=
  if os.openWrite then some (fs.put path []) else none

/-- `unsafe_write` (io/byte_buffer_file.hpp:66-69): `fwrite(bytes.data(), 1, count, file)`.
Reading beyond the `bytes` range is undefined behaviour; the number of bytes written is
ignored. -/
def unsafeWrite (os : Os) (path : Nat) (count : Nat) (bytes : List Nat) (fs : Fs) : Outcome Fs :=
  if count ≤ bytes.length then .ok (fs.put path ((bytes.take count).take os.accept)) else .ub

/-- `write(path, count, bytes)` (io/byte_buffer_file.hpp:122-131). -/
def writeN (os : Os) (path : Nat) (count : Nat) (bytes : List Nat) : St Fs PUnit := fun fs =>
  match openWrite os path fs with
  | none => (.throw (.invalidArgument "cannot write to invalid path"), fs)
  | some fs1 =>
    match unsafeWrite os path count bytes fs1 with
    | .ok fs2 => (.ok ⟨⟩, fs2)
    | _ => (.ub, fs1)

/-- `write(path, bytes)` (io/byte_buffer_file.hpp:135-145): `std::distance` is the size. -/
def write (os : Os) (path : Nat) (bytes : List Nat) : St Fs PUnit := writeN os path bytes.length bytes

/-- `try_write(path, count, bytes)` (io/byte_buffer_file.hpp:150-161). -/
def tryWriteN (os : Os) (path : Nat) (count : Nat) (bytes : List Nat) : St Fs Bool := fun fs =>
  match openWrite os path fs with
  | none => (.ok false, fs)
  | some fs1 =>
    match unsafeWrite os path count bytes fs1 with
    | .ok fs2 => (.ok true, fs2)
    | _ => (.ub, fs1)

/-- `try_write(path, bytes)` (io/byte_buffer_file.hpp:165-177). -/
def tryWrite (os : Os) (path : Nat) (bytes : List Nat) : St Fs Bool :=
  tryWriteN os path bytes.length bytes

/-- `get_read_file_pointer` (io/byte_buffer_file.hpp:43-45): the content behind the handle. -/
def openRead (os : Os) (path : Nat) (fs : Fs) : Option (List Nat) :=
  if os.openRead then fs path else none

/-- `file_size` (io/byte_buffer_file.hpp:73-81) of a freshly opened file. -/
def fileSize (content : List Nat) : Nat := content.length

/-- `unsafe_read` (io/byte_buffer_file.hpp:59-62): `fread` into a range whose current
content is `out`; the number of bytes read is ignored, so bytes not delivered keep their
previous value. -/
def unsafeRead (os : Os) (content : List Nat) (out : List Nat) : List Nat :=
  let got := (content.take out.length).take os.deliver
  got ++ out.drop got.length

/-- `read(path, count)` (io/byte_buffer_file.hpp:86-97). -/
def read (os : Os) (path : Nat) (count : Option Nat) (fs : Fs) : Outcome (List Nat) :=
  match openRead os path fs with
  | none => .throw (.invalidArgument "cannot read invalid path")
  | some content =>
    let n := match count with
      | none => fileSize content
      | some c => min c (fileSize content)
    .ok (unsafeRead os content (List.replicate n 0))

/-- `try_read(path, out)` (io/byte_buffer_file.hpp:102-117): returns the size and the new
content of the range; `out` is shortened when the file is smaller (`out.resize`), never
lengthened. -/
def tryRead (os : Os) (path : Nat) (fs : Fs) (out : List Nat) : Result Nat ReadError × List Nat :=
  match openRead os path fs with
  | none => (.error .fileNotFound, out)
  | some content =>
    let out1 := if fileSize content < out.length then out.take (fileSize content) else out
    let out2 := unsafeRead os content out1
    (.value out2.length, out2)

end Wite.Io.File
