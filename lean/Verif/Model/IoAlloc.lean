import Verif.Model.Io

/-!
# Model of writing and reading ranges when memory runs out

Files: io/byte_utilities.hpp:41-50, io/byte_buffer_write.hpp, io/byte_buffer_read.hpp:88-106,
155-173.

`byte_count(values...)` takes its arguments by value, so every call copies the values it
counts; copying a range such as a `std::vector` allocates memory and can throw
`std::bad_alloc`.  A parameter is initialised in the context of the caller; what `byte_count`
itself calls runs inside a `noexcept` function.

`plan n` says whether the `n`-th allocation fails; the state is the buffer and the number of
allocations made so far.  Arguments are copied from left to right (the language leaves the
order open).  Freeing memory is not modelled.  All arguments are lvalues.
-/

namespace Wite.IoAlloc

open Wite.Io

/-- An argument, and whether copying it allocates (a vector with elements does; a number, an
array and an empty vector do not). -/
structure AVal where
  val : WVal
  heap : Bool
  deriving DecidableEq, Repr

/-- The buffer and the number of allocations so far. -/
structure Mem where
  buf : List Nat
  count : Nat
  deriving DecidableEq, Repr

/-- A call that works on the buffer and does not allocate. -/
def onBuf {α : Type} (x : St (List Nat) α) : St Mem α := fun m =>
  ((x.run m.buf).1, ⟨(x.run m.buf).2, m.count⟩)

/-- The body of a `noexcept` function. -/
def nox {α : Type} (x : St Mem α) : St Mem α := fun m => (noexcept (x.run m).1, (x.run m).2)

/-- Copy an argument into a parameter. -/
def copyArg (plan : Nat → Bool) (v : AVal) : St Mem Unit := fun m =>
  if v.heap then
    (if plan m.count then .throw .badAlloc else .ok (), ⟨m.buf, m.count + 1⟩)
  else (.ok (), m)

/-- Copy the arguments of a call. -/
def copyArgs (plan : Nat → Bool) : List AVal → St Mem Unit
  | [] => pure ()
  | v :: vs => do
    copyArg plan v
    copyArgs plan vs

/-- The body of `byte_count(first_value, other_values...)` (io/byte_utilities.hpp:41-50).  The
inner call copies the other values again. -/
def byteCountBody (plan : Nat → Bool) : List AVal → St Mem Nat
  | [] => pure 0
  | v :: vs =>
    if vs.isEmpty then pure (valueSize v.val)
    else do
      copyArgs plan vs
      let rest ← nox (byteCountBody plan vs)
      pure ((valueSize v.val + rest) % sizeMod)

/-- A call `byte_count(values...)` (io/byte_utilities.hpp:41-50). -/
def byteCount (plan : Nat → Bool) (vs : List AVal) : St Mem Nat := do
  copyArgs plan vs
  nox (byteCountBody plan vs)

/-- `_recursive_unsafe_write` (io/byte_buffer_write.hpp:100-109): a value is written, then
counted. -/
def recursiveUnsafeWrite (plan : Nat → Bool) (host : Endian) : (pos : Nat) → List AVal → St Mem Nat
  | _, [] => pure 0
  | pos, v :: vs => do
    let out ← onBuf (uncheckedWrite host pos v.val)
    if vs.isEmpty then pure out
    else do
      let n ← byteCount plan [v]
      let rest ← recursiveUnsafeWrite plan host (pos + n) vs
      pure ((out + rest) % sizeMod)

/-- `write(buffer, values...)` (io/byte_buffer_write.hpp:123-130). -/
def write (plan : Nat → Bool) (host : Endian) (vs : List AVal) : St Mem Nat := do
  let n ← byteCount plan vs
  let m ← St.get
  if m.buf.length < n then
    St.throw (.outOfRange "Insufficient buffer space for write")
  else
    recursiveUnsafeWrite plan host 0 vs

/-- `write_at(position, buffer, values...)` (io/byte_buffer_write.hpp:281-294). -/
def writeAt (plan : Nat → Bool) (host : Endian) (pos : Nat) (vs : List AVal) : St Mem Nat := do
  let n ← byteCount plan vs
  let m ← St.get
  let endPos := (pos + n) % sizeMod
  if endPos < pos then
    St.throw (.invalidArgument "Buffer read position exceeds allowed value")
  else if endPos > m.buf.length then
    St.throw (.outOfRange "Insufficient buffer space for write")
  else do
    let k ← recursiveUnsafeWrite plan host pos vs
    pure ((pos + k) % sizeMod)

/-- `try_write` of one value (io/byte_buffer_write.hpp:145-163, 169-189), `noexcept`; in the
iterator form on the buffer from offset `start`, undefined if that lies behind the end. -/
def tryWriteOne (plan : Nat → Bool) (host : Endian) (start : Nat) (v : AVal) :
    St Mem (Result Nat WriteError) := nox do
  let m ← St.get
  if m.buf.length < start then
    St.ub
  else do
    let n ← byteCount plan [v]
    if m.buf.length - start < n then
      pure (.error .insufficientBuffer)
    else do
      let k ← onBuf (uncheckedWrite host start v.val)
      pure (.value k)

/-- The body of `_recursive_try_write` (io/byte_buffer_write.hpp:216-234, 238-255), whose
parameters have been copied from the arguments. -/
def recursiveTryWrite (plan : Nat → Bool) (host : Endian) :
    (start : Nat) → List AVal → St Mem (Result Nat WriteError)
  | _, [] => pure (.value 0)
  | start, v :: vs => do
    let first ← tryWriteOne plan host start v
    match first with
    | .error e => pure (.error e)
    | .value n =>
      if vs.isEmpty then pure (.value n)
      else do
        let k ← byteCount plan [v]
        copyArgs plan vs
        let rest ← recursiveTryWrite plan host (start + k) vs
        match rest with
        | .error e => pure (.error e)
        | .value m => pure (.value ((n + m) % sizeMod))

/-- `try_write(buffer, values...)`: of one value (io/byte_buffer_write.hpp:169-176), of
several (300-304), which are copied into the parameters of `_recursive_try_write`. -/
def tryWrite (plan : Nat → Bool) (host : Endian) (vs : List AVal) :
    St Mem (Result Nat WriteError) :=
  match vs with
  | [v] => tryWriteOne plan host 0 v
  | vs => nox do
    copyArgs plan vs
    recursiveTryWrite plan host 0 vs

/-- The caller's range and the number of allocations so far. -/
structure RMem where
  range : List Obj
  count : Nat
  deriving DecidableEq, Repr

/-- Copy the range (a vector; an empty one does not allocate). -/
def copyRange (plan : Nat → Bool) : St RMem Unit := fun m =>
  if m.range.isEmpty then (.ok (), m)
  else (if plan m.count then .throw .badAlloc else .ok (), ⟨m.range, m.count + 1⟩)

/-- `read_range(buffer, range)` with a vector of natively stored values
(io/byte_buffer_read.hpp:88-106).  The result is moved out of the range if that was an rvalue
(what is left of it then is of no interest), and is a copy of it otherwise. -/
def readRange (plan : Nat → Bool) (host : Endian) (t : Ty) (lvalue : Bool) (buf : List Nat) :
    St RMem (List Obj) := do
  copyRange plan
  let m ← St.get
  if byteCountRange t m.range.length > buf.length then
    St.throw (.outOfRange "Insufficient buffer space for read")
  else do
    let vs ← St.lift (generateRead host t buf m.range.length 0)
    let m ← St.get
    St.set ⟨vs, m.count⟩
    if lvalue then copyRange plan else pure ()
    pure vs

/-- `try_read_range(buffer, range)` (io/byte_buffer_read.hpp:155-173), `noexcept`: the result
is made from a copy of the range. -/
def tryReadRange (plan : Nat → Bool) (host : Endian) (t : Ty) (buf : List Nat) :
    St RMem (Result (List Obj) ReadError) := fun m =>
  let r := (do
    let m ← St.get
    if buf.length < (m.range.length * t.size) % sizeMod then
      pure (.error .insufficientBuffer)
    else do
      let vs ← St.lift (generateRead host t buf m.range.length 0)
      St.set ⟨vs, m.count⟩
      copyRange plan
      pure (.value vs) : St RMem (Result (List Obj) ReadError)).run m
  (noexcept r.1, r.2)

end Wite.IoAlloc
