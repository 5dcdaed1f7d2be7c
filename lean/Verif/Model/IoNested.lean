import Verif.Model.EndianOverride
import Verif.Model.IoStream

/-!
# Model of wrapped numbers inside larger types, and in streams

`io::little_endian<T>` and `io::big_endian<T>` have defaulted special members and one member (io/encoding.hpp:47-57,
59-65 and 95-101), so they are standard-layout and trivial themselves.  Anything built from them out of arrays and
structs is too, and so is accepted wherever a `common::is_pod_like` type is (common/concepts.hpp:30-31 and
io/concepts.hpp:48-55): by the buffer functions as a natively stored type, and by the stream functions
(io/byte_stream.hpp:25-40), which do not look for `is_encoded` at all.

The numbers are unsigned integers.  A struct or array is the list of the numbers in it, in memory order, without padding.
`std::array`s are not written as a whole by the buffer functions but element by element, which does not compile for
wrapped elements; an aggregate that is written to a buffer is a struct here.
-/

namespace Wite.Nested

open Wite.Io Wite.Uuid Wite.Override

/-- A value: a number by itself, wrapped or not, or a struct or array of such numbers. -/
inductive Val where
  | alone (v : Num)
  | inside (vs : List Num)
  deriving DecidableEq, Repr

/-- The type of a value: that of a number, or those of the numbers in a struct or array. -/
inductive NTy where
  | alone (t : Ty)
  | inside (ts : List Ty)
  deriving DecidableEq, Repr

/-- The bytes of a value in memory: the wrappers hold the number as the machine stores it (`Value_T value`,
io/encoding.hpp:52). -/
def Val.object (machine : Endian) : Val → Obj
  | .alone v => objectOf machine v.size v.value
  | .inside vs => vs.flatMap fun v => objectOf machine v.size v.value

/-- The value as an argument of the buffer functions: only a number that is wrapped itself `is_encoded`
(io/concepts.hpp:45-46 and io/byte_buffer_write.hpp:81-89). -/
def Val.arg (machine : Endian) : Val → WVal
  | .alone v => .single v.enc (Val.object machine (.alone v))
  | .inside vs => .single .native (Val.object machine (.inside vs))

/-- `sizeof` of a type; the wrappers add nothing to the size of the number (io/encoding.hpp:47-57). -/
def NTy.size : NTy → Nat
  | .alone t => t.size
  | .inside ts => (ts.map Ty.size).sum

/-- The type as a template argument of the buffer functions: `is_encoded` or natively stored
(io/byte_buffer_read.hpp:40-50). -/
def NTy.ty : NTy → Ty
  | .alone t => t
  | .inside ts => ⟨(NTy.inside ts).size, .native⟩

/-- The numbers in consecutive bytes of memory, as the machine understands them. -/
def fields (machine : Endian) : List Nat → Obj → List Nat
  | [], _ => []
  | n :: ns, o => numberOf machine (o.take n) :: fields machine ns (o.drop n)

/-- The numbers the program finds in an object: the member `value` of a wrapper (io/encoding.hpp:52), or the number. -/
def NTy.numbers (machine : Endian) : NTy → Obj → List Nat
  | .alone _, o => [numberOf machine o]
  | .inside ts, o => fields machine (ts.map Ty.size) o

/-- `io::write(buffer, values...)` (io/byte_buffer_write.hpp:123-130). -/
def write (machine : Endian) (vs : List Val) : St (List Nat) Nat := Io.write machine (vs.map (Val.arg machine))

/-- `io::read<Ts...>(buffer)` (io/byte_buffer_read.hpp:77-84): the numbers of each value. -/
def read (machine : Endian) (ts : List NTy) (buf : List Nat) : Outcome (List (List Nat)) := do
  let os ← Io.read machine (ts.map NTy.ty) buf
  pure (List.zipWith (NTy.numbers machine) ts os)

/-- `io::read_range(buffer, range)` for a range of `n` numbers (io/byte_buffer_read.hpp:88-106): each is read as
`unchecked_read` reads its type. -/
def readRange (machine : Endian) (t : Ty) (n : Nat) (buf : List Nat) : Outcome (List Nat) := do
  let os ← Io.readRange machine t n buf
  pure (os.map (numberOf machine))

/-- `io::write(stream, value)` (io/byte_stream.hpp:36-40). -/
def streamWrite (machine : Endian) (v : Val) : St Ios.OStream Unit := Ios.write (v.object machine)

/-- `io::read<T>(stream)` (io/byte_stream.hpp:25-32). -/
def streamRead (machine : Endian) (t : NTy) : St Ios.IStream (List Nat) := do
  let o ← Ios.read t.size
  pure (t.numbers machine o)

end Wite.Nested
