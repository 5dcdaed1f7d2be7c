import Verif.Model.IoCalls
import Verif.Model.IoFile
import Verif.Model.Uuid

/-!
# Which function a call with the name of a file finds

The functions of io/byte_buffer_file.hpp take a `const std::filesystem::path&`, which literals, pointers, strings and string views of any
character type convert to.  The functions of the same names for buffers (io/byte_buffer_read.hpp, io/byte_buffer_write.hpp) take anything that is
`byte_range_like`, and strings and string views are.  This file models overload resolution between the two, for programs that include
io/byte_buffer_file.hpp, with or without the headers for buffers, and what the call then does.

Simplifications: the value of a function that is found is modelled as `IoFile.lean` and `Io.lean` do; the file named by some characters is given by a
function `pathOf` of them; exceptions are enabled; the data is a container of bytes.  A function whose body does not compile is found nevertheless, and
that is an error.  Not modelled: names of other types (iterators, `std::vector<char>`, which does not convert to a path), explicit template arguments.
-/

namespace Wite.FileNames

open Wite Wite.Io

/-- What stands for the name of a file. -/
inductive Form where
  /-- a string literal or another built-in array of characters -/
  | array
  | pointer
  /-- `std::basic_string` -/
  | string
  /-- `std::basic_string_view` -/
  | view
  /-- `std::filesystem::path` -/
  | path
  deriving DecidableEq, Repr

/-- The argument that names a file: its form, the size of its characters, whether it is `const` and whether it is an lvalue. -/
structure Name where
  form : Form
  width : Nat
  isConst : Bool
  lvalue : Bool
  deriving DecidableEq, Repr

/-- `byte_range_like` (io/concepts.hpp:25-32).  Arrays and pointers have no `value_type`, and a `std::filesystem::path`, whose elements are paths, has no
`rbegin`. -/
def Name.rangeLike (n : Name) : Bool :=
  match n.form with
  | .string | .view => true
  | .array | .pointer | .path => false

/-- The name as a buffer: the characters of a view cannot be changed, those of a string unless it is `const`. -/
def Name.asBuffer (n : Name) : IoCalls.Buf :=
  ⟨.owner, n.isConst || n.form == .view, n.width⟩

/-- Which headers are included besides io/byte_buffer_file.hpp, which includes neither (io/byte_buffer_file.hpp:10-19). -/
structure Headers where
  /-- io/byte_buffer_read.hpp, which io/byte_buffer.hpp, io/byte_read_buffer_view.hpp, io.hpp and wite.hpp include -/
  bufferRead : Bool
  /-- io/byte_buffer_write.hpp, which io/byte_buffer.hpp, io/byte_write_buffer_view.hpp, io.hpp and wite.hpp include -/
  bufferWrite : Bool
  deriving DecidableEq, Repr

/-- The container with the data, or for the data. -/
structure Data where
  arg : IoCalls.Arg
  /-- it has `begin`, `end` and `data`: `contiguous_range_like` (common/concepts.hpp:51-58) -/
  contiguous : Bool
  /-- it has `resize` -/
  resizable : Bool
  deriving DecidableEq, Repr

/-- A call: `read(name)`, `read(name, count)`, `try_read(name, out)`, `write(name, bytes)`, `write(name, count, bytes)`, `try_write(name, bytes)` and
`try_write(name, count, bytes)`. -/
inductive Fn where
  | read
  | readN
  | tryRead (out : Data)
  | write (bytes : Data)
  | writeN (bytes : Data)
  | tryWrite (bytes : Data)
  | tryWriteN (bytes : Data)
  deriving DecidableEq, Repr

/-- What becomes of a call. -/
inductive Verdict where
  /-- it does not compile -/
  | error
  /-- the function of io/byte_buffer_file.hpp is called -/
  | file
  /-- the function for buffers is called, and the name is the buffer -/
  | buffer
  deriving DecidableEq, Repr

/-- A function for buffers takes the arguments: `read` (io/byte_buffer_read.hpp:77-78) of one argument, the types to read being none; `write`
(io/byte_buffer_write.hpp:123-124) and `try_write` (169-170, 300-302) of any values.  `read` of two arguments does not exist, and the type to read
of `try_read` (io/byte_buffer_read.hpp:143-145, 177-179, 277-279) cannot be deduced. -/
def bufferTakes (h : Headers) (n : Name) : Fn → Bool
  | .read => h.bufferRead && n.rangeLike
  | .readN => false
  | .tryRead _ => false
  | .write _ => h.bufferWrite && n.rangeLike
  | .writeN _ => h.bufferWrite && n.rangeLike
  | .tryWrite _ => h.bufferWrite && n.rangeLike
  | .tryWriteN _ => h.bufferWrite && n.rangeLike

/-- The type of the count: an integer. -/
def countArg : IoCalls.Arg := ⟨.int true, false, false⟩

/-- The body of the function for buffers compiles (io/byte_buffer_read.hpp:77-84, io/byte_buffer_write.hpp:123-130, 169-176, 300-304). -/
def bufferBody (n : Name) : Fn → Bool
  | .read => IoCalls.read [] n.asBuffer
  | .readN => false
  | .tryRead _ => false
  | .write d => IoCalls.write n.asBuffer [d.arg]
  | .writeN d => IoCalls.write n.asBuffer [countArg, d.arg]
  | .tryWrite d => IoCalls.tryWrite n.asBuffer [d.arg]
  | .tryWriteN d => IoCalls.tryWrite n.asBuffer [countArg, d.arg]

/-- The function of io/byte_buffer_file.hpp takes the arguments (86, 101-102, 121-122, 134-135, 149-150, 164-165): everything in `Form` converts to a
path. -/
def fileTakes : Fn → Bool
  | .read => true
  | .readN => true
  | .tryRead d => d.contiguous && d.arg.lvalue
  | .write d => d.contiguous
  | .writeN d => d.contiguous
  | .tryWrite d => d.contiguous
  | .tryWriteN d => d.contiguous

/-- The body of the function of io/byte_buffer_file.hpp compiles: `try_read` (102-117) resizes the container and reads into it. -/
def fileBody : Fn → Bool
  | .tryRead d => d.resizable && !d.arg.isConst
  | _ => true

/-- Overload resolution.  For a string or a view the function for buffers takes the argument as it is and the other converts it to a path, so the former
is better wherever it takes the arguments; the other arguments are not taken better by the function for files. -/
def resolve (h : Headers) (n : Name) (f : Fn) : Verdict :=
  if bufferTakes h n f then (if bufferBody n f then .buffer else .error)
  else if fileTakes f then (if fileBody f then .file else .error)
  else .error

/-! ## What the call does -/

/-- The files, and the characters of the name. -/
structure World where
  fs : File.Fs
  name : List Nat

/-- What a call that writes returns: nothing, a `bool`, the number of bytes, or a `result`. -/
inductive Ret where
  | nothing
  | truth (b : Bool)
  | size (n : Nat)
  | result (r : Result Nat WriteError)
  deriving DecidableEq, Repr

/-- A function on the file the name stands for. -/
def onFile {α : Type} (pathOf : List Nat → Nat) (ret : α → Ret) (x : Nat → St File.Fs α) : St World Ret := fun w =>
  (ret <$> ((x (pathOf w.name)).run w.fs).1, { w with fs := ((x (pathOf w.name)).run w.fs).2 })

/-- A function on the characters of the name. -/
def onName {α : Type} (ret : α → Ret) (x : St (List Nat) α) : St World Ret := fun w =>
  (ret <$> (x.run w.name).1, { w with name := (x.run w.name).2 })

/-- A container of bytes as an argument of the functions for buffers. -/
def bytesVal (bytes : List Nat) : WVal := .range 1 (bytes.map fun b => [b])

/-- What a call that writes does (io/byte_buffer_file.hpp:122-177, io/byte_buffer_write.hpp:123-130, 169-176, 300-304), if it compiles.  The count is an
integer of `k` bytes. -/
def run (h : Headers) (n : Name) (f : Fn) (host : Endian) (os : File.Os) (pathOf : List Nat → Nat) (k count : Nat) (bytes : List Nat) :
    Option (St World Ret) :=
  match resolve h n f, f with
  | .file, .write _ => some (onFile pathOf (fun _ => .nothing) fun p => File.write os p bytes)
  | .file, .writeN _ => some (onFile pathOf (fun _ => .nothing) fun p => File.writeN os p count bytes)
  | .file, .tryWrite _ => some (onFile pathOf .truth fun p => File.tryWrite os p bytes)
  | .file, .tryWriteN _ => some (onFile pathOf .truth fun p => File.tryWriteN os p count bytes)
  | .buffer, .write _ => some (onName .size (Io.write host [bytesVal bytes]))
  | .buffer, .writeN _ => some (onName .size (Io.write host [.single .native (Uuid.objectOf host k count), bytesVal bytes]))
  | .buffer, .tryWrite _ => some (onName .result (Io.tryWrite host [bytesVal bytes]))
  | .buffer, .tryWriteN _ => some (onName .result (Io.tryWrite host [.single .native (Uuid.objectOf host k count), bytesVal bytes]))
  | _, _ => none

end Wite.FileNames
