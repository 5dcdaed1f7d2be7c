import Verif.Model.IoStdio

/-!
# io/byte_buffer_file.hpp while other processes use the same file

`IoStdio.lean` has one process at a time.  Here any number of processes write a file with `write(path, bytes)` or `try_write(path, bytes)`
while another reads it, again and again, with `read(path, count)` or `try_read(path, range)`.  Every call is cut into the steps that the
operating system sees: opening the file, asking for its size, transferring some bytes, closing the file.  An execution is any list of such
steps; a step of a process that is not at the place for it does nothing.

The file system keeps contents under inode numbers; the path names one of them, and an open handle stays with the inode it was opened for.
Processes replace the content in one of two ways: `inPlace` is `io::write(path, bytes)` and no more; `byRename` is `io::write` to a name of
the process's own followed by `std::filesystem::rename` to the path, the usual way of replacing a file (not a function of the library).

Simplified: the path exists and is an ordinary file which everybody may open; what `fwrite` keeps in its buffer is part of the bytes not
transferred yet; sizes fit into `long`, and there is memory for the result (`IoStdio.lean` has the rest); `fseek` and `ftell` are one step; a
process writes one file at a time.
-/

namespace Wite.Io.Shared

open Wite.Io.Stdio (overwrite)

/-- The call of the reading process: `read` with or without a count (io/byte_buffer_file.hpp:86-97) or `try_read` into a range of bytes
(io/byte_buffer_file.hpp:102-117). -/
inductive Call where
  | read (count : Option Nat)
  | tryRead (out : List Nat)
  deriving DecidableEq, Repr

/-- The bytes into which the file is read, once its size is known: a new vector of zeros (io/byte_buffer_file.hpp:92) or the range of the
caller, shortened if it is longer than the file (io/byte_buffer_file.hpp:109-111). -/
def Call.buffer (call : Call) (size : Nat) : List Nat :=
  match call with
  | .read none => List.replicate size 0
  | .read (some k) => List.replicate (min k size) 0
  | .tryRead out => if size < out.length then out.take size else out

/-- A process that calls `write` (io/byte_buffer_file.hpp:135-145) or `try_write` (io/byte_buffer_file.hpp:165-177): not in a call, or the
file is open, with the inode of the handle, the bytes to write and the position. -/
inductive Writer where
  | idle
  | writing (ino : Nat) (bytes : List Nat) (pos : Nat)
  deriving DecidableEq, Repr

/-- The reading process: not in a call, behind `fopen` (io/byte_buffer_file.hpp:87, 104), or in `fread` (io/byte_buffer_file.hpp:61), with
the inode of the handle, the bytes read into and the position. -/
inductive Reader where
  | idle
  | opened (call : Call) (ino : Nat)
  | reading (ino : Nat) (buf : List Nat) (pos : Nat)
  deriving DecidableEq, Repr

/-- How the writing processes replace the content of the path: by `write` to the path (io/byte_buffer_file.hpp:135-145), or by `write` to a
name of their own and a rename. -/
inductive Method where
  | inPlace
  | byRename
  deriving DecidableEq, Repr

/-- All processes and the file: the contents of the inodes, the inode of the path, the next inode, the writing processes, the reading
process, and the bytes that its calls of io/byte_buffer_file.hpp:86-97, 102-117 have given so far. -/
structure World where
  store : Nat → List Nat
  cur : Nat
  next : Nat
  writers : Nat → Writer
  reader : Reader
  results : List (List Nat)

/-- Nobody is in a call of io/byte_buffer_file.hpp; the path has the content `old`. -/
def World.init (old : List Nat) : World := ⟨fun _ => old, 0, 1, fun _ => .idle, .idle, []⟩

/-- What is in the file (read by io/byte_buffer_file.hpp:61). -/
def World.content (w : World) : List Nat := w.store w.cur

/-- Change the content of one inode (by `fopen` of io/byte_buffer_file.hpp:37 or `fwrite` of io/byte_buffer_file.hpp:68). -/
def World.put (w : World) (ino : Nat) (c : List Nat) : World := { w with store := fun i => if i = ino then c else w.store i }

/-- Change the state of one writing process (io/byte_buffer_file.hpp:135-145). -/
def World.setWriter (w : World) (p : Nat) (x : Writer) : World := { w with writers := fun q => if q = p then x else w.writers q }

/-- A step of a process. -/
inductive Ev where
  /-- process `p` calls `write` with the bytes; the file is opened and emptied (io/byte_buffer_file.hpp:136) -/
  | start (p : Nat) (bytes : List Nat)
  /-- up to `m` bytes of process `p` arrive in the file (io/byte_buffer_file.hpp:68) -/
  | flush (p m : Nat)
  /-- all bytes have arrived and the file is closed (io/byte_buffer_file.hpp:144), then renamed if that is the method -/
  | close (p : Nat)
  /-- the device is full: the file is closed without the rest, which is not reported (io/byte_buffer_file.hpp:67-69, 144) -/
  | short (p : Nat)
  /-- process `p` ends in the middle of the call -/
  | kill (p : Nat)
  /-- the reading process opens the file (io/byte_buffer_file.hpp:87, 104) -/
  | ropen (call : Call)
  /-- it asks for the size and prepares the buffer (io/byte_buffer_file.hpp:92, 109-111) -/
  | rsize
  /-- up to `m` bytes are read (io/byte_buffer_file.hpp:61) -/
  | rpiece (m : Nat)
  /-- `fread` returns, because all bytes asked for were read or at the end of the file, and the call with it
  (io/byte_buffer_file.hpp:93-96, 113-116) -/
  | rfinish
  deriving DecidableEq, Repr

/-- Close the file of process `p` (io/byte_buffer_file.hpp:144, 174); by the method `byRename` the path gets its inode. -/
def World.closeFile (method : Method) (w : World) (p ino : Nat) : World :=
  let w := w.setWriter p .idle
  match method with
  | .inPlace => w
  | .byRename => { w with cur := ino }

/-- One step (of the calls in io/byte_buffer_file.hpp:86-177). -/
def World.step (method : Method) (w : World) (e : Ev) : World :=
  match e with
  | .start p v =>
    match w.writers p with
    | .writing .. => w
    | .idle =>
      match method with
      | .inPlace => (w.put w.cur []).setWriter p (.writing w.cur v 0)
      | .byRename => { (w.put w.next []).setWriter p (.writing w.next v 0) with next := w.next + 1 }
  | .flush p m =>
    match w.writers p with
    | .idle => w
    | .writing ino v pos =>
      let bs := (v.drop pos).take m
      (w.put ino (overwrite (w.store ino) pos bs)).setWriter p (.writing ino v (pos + bs.length))
  | .close p =>
    match w.writers p with
    | .idle => w
    | .writing ino v pos => if pos = v.length then w.closeFile method p ino else w
  | .short p =>
    match w.writers p with
    | .idle => w
    | .writing ino _ _ => w.closeFile method p ino
  | .kill p => w.setWriter p .idle
  | .ropen call =>
    match w.reader with
    | .idle => { w with reader := .opened call w.cur }
    | _ => w
  | .rsize =>
    match w.reader with
    | .opened call ino => { w with reader := .reading ino (call.buffer (w.store ino).length) 0 }
    | _ => w
  | .rpiece m =>
    match w.reader with
    | .reading ino buf pos =>
      let bs := ((w.store ino).drop pos).take (min m (buf.length - pos))
      { w with reader := .reading ino (overwrite buf pos bs) (pos + bs.length) }
    | _ => w
  | .rfinish =>
    match w.reader with
    | .reading ino buf pos =>
      if pos = buf.length ∨ (w.store ino).length ≤ pos then { w with reader := .idle, results := w.results ++ [buf] } else w
    | _ => w

/-- An execution: any steps of any processes in any order (calls of io/byte_buffer_file.hpp:86-177). -/
def World.run (method : Method) (w : World) (es : List Ev) : World := es.foldl (World.step method) w

end Wite.Io.Shared
