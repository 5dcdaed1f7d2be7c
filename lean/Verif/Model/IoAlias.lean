import Verif.Model.Io

/-!
# Model of `io/byte_buffer_write.hpp` and `io/byte_buffer_read.hpp` with arguments that lie in the buffer

`Model/Io.lean` has arguments that are values of their own.  Here an argument of a writing function can also be a reference to an object
in the memory written to, such as `buffer[1]`, or a span over such objects; and the range read into can lie in the memory read
from.  The memory is one list of bytes; the buffer is its part from `start` to the end.

`std::copy_n` copies byte after byte, or as `std::memmove` does; the standard leaves open which, libstdc++ does the
latter where the iterators allow it.
-/

namespace Wite.Io

/-- How `std::copy_n` copies bytes. -/
inductive CopyN where
  /-- one after another from the first on -/
  | forward
  /-- all at once -/
  | memmove
  deriving DecidableEq, Repr

/-- `std::copy_n` from one place of the memory to another (io/byte_buffer_write.hpp:47). -/
def copyWithin (cp : CopyN) (src dst : Nat) : (n : Nat) → St (List Nat) PUnit
  | 0 => pure ⟨⟩
  | n + 1 => do
    let mem ← St.get
    match cp with
    | .memmove => do
      let bs ← St.lift (readMem mem src (n + 1))
      writeMem dst bs
    | .forward => do
      let bs ← St.lift (readMem mem src 1)
      writeMem dst bs
      copyWithin cp (src + 1) (dst + 1) n

/-- An argument of `write` and `try_write`. -/
inductive AArg where
  /-- something outside of the memory, or a temporary -/
  | value (v : WVal)
  /-- a reference to an object of `n` bytes at `src` -/
  | obj (src n : Nat)
  /-- a span over `k` objects of `n` bytes each, from `src` on -/
  | span (src n k : Nat)
  deriving Repr

/-- `value_size(value)` (io/byte_utilities.hpp:28-39). -/
def AArg.size : AArg → Nat
  | .value v => valueSize v
  | .obj _ n => n
  | .span _ n k => (k * n) % sizeMod

/-- `byte_count(values...)` (io/byte_utilities.hpp:41-50). -/
def byteCountArgs : List AArg → Nat
  | [] => 0
  | v :: vs => (v.size + byteCountArgs vs) % sizeMod

/-- `_write_single_range_value` over a span (io/byte_buffer_write.hpp:51-68); the elements are references. -/
def writeSpanLoop (cp : CopyN) (n : Nat) : (k : Nat) → (src written pos : Nat) → St (List Nat) Nat
  | 0, _, written, _ => pure written
  | k + 1, src, written, pos => do
    copyWithin cp src pos n
    writeSpanLoop cp n k (src + n) (written + n) (pos + n)

/-- `unchecked_write(iterator, value)` (io/byte_buffer_write.hpp:74-94); the value is a reference. -/
def writeArg (cp : CopyN) (host : Endian) (pos : Nat) : AArg → St (List Nat) Nat
  | .value v => uncheckedWrite host pos v
  | .obj src n => do
    copyWithin cp src pos n
    pure n
  | .span src n k => writeSpanLoop cp n k src 0 pos

/-- `_recursive_unsafe_write` (io/byte_buffer_write.hpp:100-115); the values are references. -/
def recursiveWriteArgs (cp : CopyN) (host : Endian) : (pos : Nat) → List AArg → St (List Nat) Nat
  | _, [] => pure 0
  | pos, v :: vs => do
    let out ← writeArg cp host pos v
    let rest ← recursiveWriteArgs cp host (pos + v.size) vs
    pure ((out + rest) % sizeMod)

/-- `write` (io/byte_buffer_write.hpp:123-137). -/
def writeArgs (cp : CopyN) (host : Endian) (start : Nat) (vs : List AArg) : St (List Nat) Nat := do
  let mem ← St.get
  if mem.length < start then
    St.ub
  else if mem.length - start < byteCountArgs vs then
    St.throw (.outOfRange "Insufficient buffer space for write")
  else
    recursiveWriteArgs cp host start vs

/-- `write_at` (io/byte_buffer_write.hpp:281-294). -/
def writeAtArgs (cp : CopyN) (host : Endian) (pos : Nat) (vs : List AArg) : St (List Nat) Nat := do
  let mem ← St.get
  let endPos := (pos + byteCountArgs vs) % sizeMod
  if endPos < pos then
    St.throw (.invalidArgument "Buffer read position exceeds allowed value")
  else if endPos > mem.length then
    St.throw (.outOfRange "Insufficient buffer space for write")
  else do
    let n ← recursiveWriteArgs cp host pos vs
    pure ((pos + n) % sizeMod)

/-- `try_write` of one value (io/byte_buffer_write.hpp:145-189); the value is a reference. -/
def tryWriteArg (cp : CopyN) (host : Endian) (start : Nat) (v : AArg) : St (List Nat) (Result Nat WriteError) := do
  let mem ← St.get
  if mem.length < start then
    St.ub
  else if mem.length - start < v.size then
    pure (.error .insufficientBuffer)
  else do
    let n ← writeArg cp host start v
    pure (.value n)

/-- A parameter by value (io/byte_buffer_write.hpp:216, 238): objects are copied, a copied span is a span over the same
objects. -/
def AArg.byValue (mem : List Nat) : AArg → Outcome AArg
  | .value v => .ok (.value v)
  | .obj src n => do
    let o ← readMem mem src n
    pure (.value (.single .native o))
  | .span src n k => .ok (.span src n k)

/-- Parameters by value (io/byte_buffer_write.hpp:216, 238). -/
def byValues (mem : List Nat) : List AArg → Outcome (List AArg)
  | [] => .ok []
  | v :: vs => do
    let w ← v.byValue mem
    let ws ← byValues mem vs
    pure (w :: ws)

/-- `_recursive_try_write` (io/byte_buffer_write.hpp:216-255), after its parameters were initialised.  (Each level copies its
parameters again, which changes nothing: what it copies are temporaries and spans.) -/
def recursiveTryWriteArgs (cp : CopyN) (host : Endian) : (start : Nat) → List AArg → St (List Nat) (Result Nat WriteError)
  | _, [] => pure (.value 0)
  | start, v :: vs => do
    let first ← tryWriteArg cp host start v
    match first with
    | .error e => pure (.error e)
    | .value n =>
      if vs.isEmpty then pure (.value n)
      else do
        let rest ← recursiveTryWriteArgs cp host (start + v.size) vs
        match rest with
        | .error e => pure (.error e)
        | .value m => pure (.value ((n + m) % sizeMod))

/-- `try_write` (io/byte_buffer_write.hpp:169-189, 300-312): one value by reference, several by value. -/
def tryWriteArgs (cp : CopyN) (host : Endian) (start : Nat) (vs : List AArg) : St (List Nat) (Result Nat WriteError) :=
  match vs with
  | [v] => tryWriteArg cp host start v
  | vs => do
    let mem ← St.get
    let ws ← St.lift (byValues mem vs)
    recursiveTryWriteArgs cp host start ws

/-- The loop of `read_range` (io/byte_buffer_read.hpp:95-103): every element is read into a variable and then stored. -/
def readSpanLoop (n : Nat) : (k : Nat) → (pos dst : Nat) → St (List Nat) PUnit
  | 0, _, _ => pure ⟨⟩
  | k + 1, pos, dst => do
    let mem ← St.get
    let bs ← St.lift (readMem mem pos n)
    writeMem dst bs
    readSpanLoop n k (pos + n) (dst + n)

/-- `read_range` (io/byte_buffer_read.hpp:88-106) of the memory from `start` on into a span over `k` native objects of `n` bytes at
`dst` of the same memory. -/
def readRangeInside (start n k dst : Nat) : St (List Nat) PUnit := do
  let mem ← St.get
  if mem.length < start then
    St.ub
  else if (k * n) % sizeMod > mem.length - start then
    St.throw (.outOfRange "Insufficient buffer space for read")
  else
    readSpanLoop n k start dst

end Wite.Io
