import Verif.Model.Io

/-!
# `wite/io/byte_buffer_file.hpp` on top of the C stream functions

`Model/IoFile.lean` models a call as one step on a map from paths to contents.  Here the
`FILE` handles are part of the state, with their positions, and every C function called by the
header is a step of its own: `fopen`, `ftell`, `fseek`, `fread`, `fwrite`, `fclose`.  What the
operating system does is chosen by an environment `Env`: how large a `long` is, how many handles may
be open, which files may be opened and which can be positioned (a pipe cannot), whether `fseek` may
go further than a `long` can say, how many bytes a call transfers at most, how much memory there is.

Ranges have elements of any width: the concept `contiguous_range_like` (common/concepts.hpp:53-57)
asks for `begin`, `end` and `data` only.

Simplified: `size_t` has 64 bits; file content is not changed by others while a call runs, except
that `fread` may deliver less; handles opened for reading cannot write and the other way round
(the header opens with "rb" and "wb" only); what `fclose` fails to write counts as not accepted by
`fwrite`; a file is not removed while it is open.
-/

namespace Wite.Io.Stdio

/-- The characters of a `std::filesystem::path`, as numbers; 0 is the NUL character. -/
abbrev Path := List Nat

/-- What a C function sees of a string passed as `c_str()`: the characters before the first NUL
(io/byte_buffer_file.hpp:37, 87, 104). -/
def cString (p : Path) : Path := p.takeWhile (· ≠ 0)

/-- Contents of every file; `none` where there is no file. -/
abbrev Fs := Path → Option (List Nat)

/-- Replace the content of one file. -/
def Fs.put (fs : Fs) (path : Path) (c : List Nat) : Fs := fun p => if p = path then some c else fs p

/-- Mode of a handle: "rb" or "wb" (io/byte_buffer_file.hpp:44, 50). -/
inductive Mode where
  | read
  | write
  deriving DecidableEq, Repr

/-- What a `FILE*` points to. -/
structure Handle where
  path : Path
  pos : Nat
  mode : Mode
  deriving DecidableEq, Repr

/-- Choices of the system for the calls considered. -/
structure Env where
  /-- `LONG_MAX`: 2^31 - 1 on Windows, 2^63 - 1 on 64-bit Linux -/
  longMax : Nat
  /-- how many handles may be open at one time -/
  maxOpen : Nat
  /-- a vector of more bytes than this cannot be allocated -/
  room : Nat
  /-- the program may open this file -/
  may : Mode → Path → Bool
  /-- the file can be positioned -/
  seekable : Path → Bool
  /-- `fseek` may go to a position that a `long` cannot represent -/
  seekFar : Bool
  /-- how many bytes an `fwrite` accepts, at most -/
  accept : Nat
  /-- how many bytes an `fread` delivers, at most -/
  deliver : Nat
  /-- the k-th string made from the path during a call cannot be allocated -/
  pathFails : Nat → Bool

/-- The state of the system: files, open handles, their number, and the next handle. -/
structure Sys where
  fs : Fs
  opened : Nat → Option Handle
  used : Nat
  next : Nat

/-- `fopen` (called in io/byte_buffer_file.hpp:37): fails if too many handles are open, the file may
not be opened or, in mode "rb", does not exist; mode "wb" creates the file or empties it. -/
def fopen (env : Env) (mode : Mode) (path : Path) : St Sys (Option Nat) := fun s =>
  if s.used < env.maxOpen ∧ env.may mode path = true ∧ (mode = .read → (s.fs path).isSome = true) then
    (.ok (some s.next),
      { fs := if mode = .write then s.fs.put path [] else s.fs
        opened := fun i => if i = s.next then some ⟨path, 0, mode⟩ else s.opened i
        used := s.used + 1
        next := s.next + 1 })
  else (.ok none, s)

/-- Use an open handle and the content of its file; a handle that is not open is undefined behaviour
(the C standard's rule for every function taking a `FILE*`; io/byte_buffer_file.hpp:61, 68, 74-78, 94,
114, 130, 144, 158, 174). -/
def withHandle {α : Type} (id : Nat) (f : Handle → List Nat → Sys → Outcome α × Sys) :
    St Sys α := fun s =>
  match s.opened id with
  | none => (.ub, s)
  | some h =>
    match s.fs h.path with
    | none => (.ub, s)
    | some c => f h c s

/-- Move the position of a handle (effect of `fseek`, `fread`, `fwrite`; io/byte_buffer_file.hpp:61,
68, 76, 78). -/
def Sys.moveTo (s : Sys) (id : Nat) (h : Handle) (pos : Nat) : Sys :=
  { s with opened := fun i => if i = id then some { h with pos := pos } else s.opened i }

/-- `ftell` (called in io/byte_buffer_file.hpp:74, 77): -1 if the file cannot be positioned or the
position is not representable. -/
def ftell (env : Env) (id : Nat) : St Sys Int :=
  withHandle id fun h _ s =>
    (.ok (if env.seekable h.path = true ∧ h.pos ≤ env.longMax then (h.pos : Int) else -1), s)

/-- `fseek(file, 0, SEEK_END)` (called in io/byte_buffer_file.hpp:76); the result is not used. -/
def fseekEnd (env : Env) (id : Nat) : St Sys Unit :=
  withHandle id fun h c s =>
    if env.seekable h.path = true ∧ (c.length ≤ env.longMax ∨ env.seekFar = true) then
      (.ok (), s.moveTo id h c.length)
    else (.ok (), s)

/-- `fseek(file, off, SEEK_SET)` (called in io/byte_buffer_file.hpp:78); a negative offset is refused;
the result is not used. -/
def fseekSet (env : Env) (id : Nat) (off : Int) : St Sys Unit :=
  withHandle id fun h _ s =>
    if env.seekable h.path = true ∧ 0 ≤ off then (.ok (), s.moveTo id h off.toNat) else (.ok (), s)

/-- `fread(data, 1, n, file)` (called in io/byte_buffer_file.hpp:61): the bytes delivered. -/
def fread (env : Env) (id n : Nat) : St Sys (List Nat) :=
  withHandle id fun h c s =>
    if h.mode = .read then
      let got := ((c.drop h.pos).take n).take env.deliver
      (.ok got, s.moveTo id h (h.pos + got.length))
    else (.ok [], s)

/-- Content of a file after `bs` has been written at `pos` (effect of `fwrite`,
io/byte_buffer_file.hpp:68). -/
def overwrite (c : List Nat) (pos : Nat) (bs : List Nat) : List Nat :=
  if bs = [] then c
  else c.take pos ++ List.replicate (pos - c.length) 0 ++ bs ++ c.drop (pos + bs.length)

/-- `fwrite(data, 1, n, file)` with the `n` bytes `bs` (called in io/byte_buffer_file.hpp:68); the
result is not used. -/
def fwrite (env : Env) (id : Nat) (bs : List Nat) : St Sys Unit :=
  withHandle id fun h c s =>
    if h.mode = .write then
      let acc := bs.take env.accept
      (.ok (), { s.moveTo id h (h.pos + acc.length) with fs := s.fs.put h.path (overwrite c h.pos acc) })
    else (.ok (), s)

/-- `fclose` (called in io/byte_buffer_file.hpp:94, 114, 130, 144, 158, 174). -/
def fclose (id : Nat) : St Sys Unit :=
  withHandle id fun _ _ s =>
    (.ok (), { s with opened := fun i => if i = id then none else s.opened i, used := s.used - 1 })

/-- A contiguous range: how many elements, how wide, and their bytes.  `size()` is `elems`, `data()`
points to the bytes (common/concepts.hpp:53-57). -/
structure Range where
  elems : Nat
  width : Nat
  data : List Nat
  deriving DecidableEq, Repr

/-- `out.resize(n)` with `n` below the size (called in io/byte_buffer_file.hpp:110). -/
def Range.shrink (r : Range) (n : Nat) : Range := { r with elems := n, data := r.data.take (n * r.width) }

/-- `get_file_pointer` (io/byte_buffer_file.hpp:31-39): `path.string()` is made in a noexcept
function; `k` numbers the strings made from the path during a call. -/
def getFilePointer (env : Env) (mode : Mode) (k : Nat) (path : Path) : St Sys (Option Nat) :=
  if env.pathFails k then St.lift .terminate else fopen env mode (cString path)

/-- `get_read_file_pointer` (io/byte_buffer_file.hpp:43-45). -/
def getReadFilePointer (env : Env) (k : Nat) (path : Path) : St Sys (Option Nat) :=
  getFilePointer env .read k path

/-- `get_write_file_pointer` (io/byte_buffer_file.hpp:49-51). -/
def getWriteFilePointer (env : Env) (k : Nat) (path : Path) : St Sys (Option Nat) :=
  getFilePointer env .write k path

/-- `unsafe_read` (io/byte_buffer_file.hpp:59-62): asks for as many bytes as the range has elements;
the number of bytes delivered is ignored. -/
def unsafeRead (env : Env) (id : Nat) (out : Range) : St Sys Range := do
  let got ← fread env id out.elems
  pure { out with data := got ++ out.data.drop got.length }

/-- `unsafe_write` (io/byte_buffer_file.hpp:66-69): writes `count` bytes starting at `data()`;
undefined if the range has fewer. -/
def unsafeWrite (env : Env) (id count : Nat) (bytes : Range) : St Sys Unit :=
  if count ≤ bytes.data.length then fwrite env id (bytes.data.take count) else St.ub

/-- `file_size` (io/byte_buffer_file.hpp:73-81); the cast to `size_t` is modulo 2^64. -/
def fileSize (env : Env) (id : Nat) : St Sys Nat := do
  let initialOffset ← ftell env id
  let _ ← fseekEnd env id
  let size ← ftell env id
  let _ ← fseekSet env id initialOffset
  pure (size % 2 ^ 64).toNat

/-- `dynamic_byte_buffer(n)` (io/byte_buffer_file.hpp:92; io/types.hpp:53): a vector of `n` zero bytes;
more than `max_size()` = 2^63 - 1 bytes is a length_error, more than there is room for a bad_alloc. -/
def makeVector (env : Env) (n : Nat) : Outcome Range :=
  if 2 ^ 63 - 1 < n then .throw (.lengthError "cannot create std::vector larger than max_size()")
  else if env.room < n then .throw .badAlloc
  else .ok ⟨n, 1, List.replicate n 0⟩

/-- `read(path, count)` (io/byte_buffer_file.hpp:86-97).  The path is converted to a string and back
before the call of `get_read_file_pointer` (line 87). -/
def read (env : Env) (path : Path) (count : Option Nat) : St Sys (List Nat) :=
  if env.pathFails 0 || env.pathFails 1 then St.throw .badAlloc
  else do
    let fp ← getReadFilePointer env 2 (cString path)
    match fp with
    | none => St.throw (.invalidArgument "cannot read invalid path")
    | some id => do
      let size ← fileSize env id
      let out ← St.lift (makeVector env (match count with
        | none => size
        | some c => min c size))
      let out ← unsafeRead env id out
      let _ ← fclose id
      pure out.data

/-- `try_read(path, out)` (io/byte_buffer_file.hpp:102-117), a noexcept function.  The range is returned
along with the result. -/
def tryRead (env : Env) (path : Path) (out : Range) : St Sys (Result Nat ReadError × Range) :=
  if env.pathFails 0 || env.pathFails 1 then St.lift .terminate
  else do
    let fp ← getReadFilePointer env 2 (cString path)
    match fp with
    | none => pure (.error .fileNotFound, out)
    | some id => do
      let size ← fileSize env id
      let out ← unsafeRead env id (if size < out.elems then out.shrink size else out)
      let _ ← fclose id
      pure (.value out.elems, out)

/-- `write(path, count, bytes)` (io/byte_buffer_file.hpp:122-131). -/
def writeN (env : Env) (path : Path) (count : Nat) (bytes : Range) : St Sys Unit := do
  let fp ← getWriteFilePointer env 0 path
  match fp with
  | none => St.throw (.invalidArgument "cannot write to invalid path")
  | some id => do
    let _ ← unsafeWrite env id count bytes
    fclose id

/-- `write(path, bytes)` (io/byte_buffer_file.hpp:135-145): `std::distance(begin, end)` is the number
of elements. -/
def write (env : Env) (path : Path) (bytes : Range) : St Sys Unit := do
  let fp ← getWriteFilePointer env 0 path
  match fp with
  | none => St.throw (.invalidArgument "cannot write to invalid path")
  | some id => do
    let _ ← unsafeWrite env id bytes.elems bytes
    fclose id

/-- `try_write(path, count, bytes)` (io/byte_buffer_file.hpp:150-161). -/
def tryWriteN (env : Env) (path : Path) (count : Nat) (bytes : Range) : St Sys Bool := do
  let fp ← getWriteFilePointer env 0 path
  match fp with
  | none => pure false
  | some id => do
    let _ ← unsafeWrite env id count bytes
    let _ ← fclose id
    pure true

/-- `try_write(path, bytes)` (io/byte_buffer_file.hpp:165-177). -/
def tryWrite (env : Env) (path : Path) (bytes : Range) : St Sys Bool := do
  let fp ← getWriteFilePointer env 0 path
  match fp with
  | none => pure false
  | some id => do
    let _ ← unsafeWrite env id bytes.elems bytes
    let _ ← fclose id
    pure true

end Wite.Io.Stdio
