import Verif.Model.Io

/-!
# Model of reading and writing trivial types that are ranges themselves

Files: io/byte_utilities.hpp:28-39, io/byte_buffer_read.hpp, io/byte_buffer_write.hpp.

A type can be `is_buffer_readable` (standard layout and trivial) and have `begin`, `end` and
`size` at the same time: `std::array`, a fixed-capacity vector, a pair of a pointer and a
count.  `value_size<T>()` is then `sizeof(T)`, while `value_size(value)` is
`value.size() * sizeof(T::value_type)`: the first decides how many bytes are copied when such
a value is read, the second how far the read position moves; only the elements are written.

A type is its size and, if it is a range, the size of its elements, what `size()` of an object
returns, and its elements (`begin()` to `end()`, as many as `size()` says).  Only natively
stored types can be ranges; all types here are stored natively.
-/

namespace Wite.IoPod

open Wite.Io

/-- The range a type is: `sizeof(T::value_type)`, the `size()` of an object and its elements
(what common/concepts.hpp:76-87 asks for). -/
structure Shape where
  elemSize : Nat
  count : Obj → Nat
  elem : Obj → Nat → Obj

/-- The elements of an object, `begin()` to `end()`. -/
def Shape.elems (s : Shape) (o : Obj) : List Obj := (List.range (s.count o)).map (s.elem o)

/-- A readable type (io/concepts.hpp:48-51), possibly a range. -/
structure PTy where
  size : Nat
  shape : Option Shape

/-- `value_size(value)` (io/byte_utilities.hpp:28-39), in `size_t`. -/
def valueSizeOf (t : PTy) (o : Obj) : Nat :=
  match t.shape with
  | some s => (s.count o * s.elemSize) % sizeMod
  | none => t.size

/-- `std::next(it, n)` for an iterator `pos` into a buffer of `len` bytes: not beyond the
end. -/
def nextIn (len pos n : Nat) : Outcome Nat := if pos + n ≤ len then .ok (pos + n) else .ub

/-- `unchecked_read` for a type that is not encoded (io/byte_buffer_read.hpp:47-51):
`sizeof` bytes are copied, the position moves by the value's `value_size`. -/
def uncheckedRead (t : PTy) (buf : List Nat) (pos : Nat) : Outcome (Obj × Nat) := do
  let o ← readMem buf pos t.size
  let next ← nextIn buf.length pos (valueSizeOf t o)
  pure (o, next)

/-- `_recursive_read` (io/byte_buffer_read.hpp:58-70). -/
def recursiveRead : List PTy → List Nat → Outcome (List Obj)
  | [], _ => .ok []
  | t :: ts, buf => do
    let (v, next) ← uncheckedRead t buf 0
    let rest ← spanFrom buf next
    let vs ← recursiveRead ts rest
    pure (v :: vs)

/-- `byte_count<Ts...>()` (io/byte_utilities.hpp:52-61). -/
def byteCountTys : List PTy → Nat
  | [] => 0
  | t :: ts => (t.size + byteCountTys ts) % sizeMod

/-- `read<Ts...>(buffer)` (io/byte_buffer_read.hpp:77-84). -/
def read (ts : List PTy) (buf : List Nat) : Outcome (List Obj) :=
  if byteCountTys ts > buf.length then
    .throw (.outOfRange "Insufficient buffer space for read")
  else
    recursiveRead ts buf

/-- `try_read<T>(buffer)` (io/byte_buffer_read.hpp:143-151). -/
def tryRead (t : PTy) (buf : List Nat) : Outcome (Result Obj ReadError) :=
  if buf.length < t.size then .ok (.error .insufficientBuffer)
  else do
    let (v, _) ← uncheckedRead t buf 0
    pure (.value v)

/-- `_recursive_try_read` (io/byte_buffer_read.hpp:239-255): here the position moves by
`value_size<T>()`. -/
def recursiveTryRead : List PTy → List Nat → Outcome (List (Result Obj ReadError))
  | [], _ => .ok []
  | t :: ts, buf => do
    let first ← tryRead t buf
    let sp ← spanFrom buf (if first.ok then t.size else buf.length)
    let others ← recursiveTryRead ts sp
    pure (first :: others)

/-- What `write` and `try_write` are given for an object of the type
(io/byte_buffer_write.hpp:81-93): ranges are written element by element. -/
def argOf (t : PTy) (o : Obj) : WVal :=
  match t.shape with
  | some s => .range s.elemSize (s.elems o)
  | none => .single .native o

/-- `to_bytes(value)` (io/byte_buffer_write.hpp:341-349): a zeroed array of `sizeof(value)`
bytes, written to. -/
def toBytes (host : Endian) (t : PTy) (o : Obj) : Outcome (List Nat) :=
  match (write host [argOf t o]).run (List.replicate t.size 0) with
  | (.ok _, out) => .ok out
  | (.throw e, _) => .throw e
  | (.ub, _) => .ub
  | (.terminate, _) => .terminate
  | (.diverge, _) => .diverge

/-- `from_bytes<T>(buffer)` (io/byte_buffer_read.hpp:309-313). -/
def fromBytes (t : PTy) (buf : List Nat) : Outcome (List Obj) := read [t] buf

end Wite.IoPod
