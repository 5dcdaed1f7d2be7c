import Verif.Model.Outcome

/-!
# Model of which calls of the `io` functions compile

The functions of io/byte_buffer_read.hpp, io/byte_buffer_write.hpp, io/byte_stream.hpp and the two buffer views are
templates.  Whether a call compiles is decided by the constraints, the nested types they name, and the bodies, which
call one another.  Here each function becomes a decision about the types of its arguments; whether overload resolution
or the body fails is not told apart.

A type is looked at as far as the constraints look.  Not modelled: `std::vector<bool>`, types that cannot be copied,
ranges over constant elements such as `std::span<const T>` and initialiser lists as values, volatile types, and explicit
template arguments that name the type of the buffer.
-/

namespace Wite.IoCalls

/-- The type of a value, without references and top-level `const`. -/
inductive VTy where
  /-- an integral type (`bool` and the character types included), of one byte or wider -/
  | int (wide : Bool)
  /-- a standard-layout and trivial type that is none of the others: a floating-point number, an enumeration, a struct -/
  | pod
  /-- `io::little_endian<T>` or `io::big_endian<T>`; `T` is an integral type wider than a byte (io/encoding.hpp:48-49) -/
  | wrapped
  /-- `std::array<T, n>` -/
  | array (t : VTy)
  /-- a container with `begin`, `end` and `size` that owns memory: vector, list, string -/
  | vector (t : VTy)
  /-- a range without `size`: `std::forward_list` -/
  | unsized (t : VTy)
  /-- a built-in array -/
  | carray (t : VTy)
  /-- a pointer -/
  | ptr
  /-- a class that is not trivial and no range -/
  | klass
  deriving DecidableEq, Repr

/-- `common::is_pod_like` (common/concepts.hpp:30-31).  The wrappers are trivial too: their special members are
defaulted (io/encoding.hpp:56, io/encoding.hpp:65). -/
def VTy.podLike : VTy → Bool
  | .int _ => true
  | .pod => true
  | .wrapped => true
  | .array t => t.podLike
  | .vector _ => false
  | .unsized _ => false
  | .carray t => t.podLike
  | .ptr => true
  | .klass => false

/-- `is_encoded` (io/concepts.hpp:45-46). -/
def VTy.encoded : VTy → Bool
  | .wrapped => true
  | _ => false

/-- `is_buffer_readable` and `is_buffer_writeable` (io/concepts.hpp:49-55); the wrapped type is an integer. -/
def VTy.plain : VTy → Bool
  | .carray _ => false
  | .ptr => false
  | t => t.podLike || t.encoded

/-- `T::value_type` of the types with `begin`, `end` and `size`: `common::is_sized_range_v` (common/concepts.hpp:76-87). -/
def VTy.elem : VTy → Option VTy
  | .array t => some t
  | .vector t => some t
  | _ => none

/-- `std::decay_t`, and the type of a parameter passed by value. -/
def VTy.decay : VTy → VTy
  | .carray _ => .ptr
  | t => t

/-- An argument: its type, whether it is `const`, and whether it is an lvalue. -/
structure Arg where
  ty : VTy
  isConst : Bool
  lvalue : Bool
  deriving DecidableEq, Repr

/-- The containers a buffer can be. -/
inductive Kind where
  /-- contiguous memory with nested iterator types: vector, array, string, string view -/
  | owner
  /-- `std::span`, which has no nested `const_iterator` in C++20 -/
  | span
  | deque
  | list
  | forwardList
  | builtinArray
  | initialiserList
  deriving DecidableEq, Repr

/-- A buffer: the container, whether its elements can only be read, and their size. -/
structure Buf where
  kind : Kind
  isConst : Bool
  width : Nat
  deriving DecidableEq, Repr

/-- `byte_range_like` (io/concepts.hpp:25-32): `value_type`, `begin`, `end`, `rbegin` and `rend`.  That the elements are
bytes is named in the `requires` expression but not required. -/
def Buf.rangeLike (b : Buf) : Bool :=
  match b.kind with
  | .owner | .span | .deque | .list => true
  | .forwardList | .builtinArray | .initialiserList => false

/-- `byte_iterator_like` (io/concepts.hpp:34-43) for the iterators of the buffer: they can be moved by a number. -/
def Buf.jumps (b : Buf) : Bool :=
  match b.kind with
  | .owner | .span | .deque => true
  | _ => false

/-- Whether `std::span{iterator, iterator}` can be made from iterators of the buffer
(io/byte_buffer_read.hpp:64, io/byte_buffer_read.hpp:120): they are contiguous. -/
def Buf.spans (b : Buf) : Bool :=
  match b.kind with
  | .owner | .span => true
  | _ => false

/-- The span made from iterators of the buffer (io/byte_buffer_read.hpp:64, io/byte_buffer_read.hpp:120). -/
def Buf.asSpan (b : Buf) : Buf := ⟨.span, b.isConst, b.width⟩

/-- `value_size(value)` (io/byte_utilities.hpp:28-39). -/
def valueSize (t : VTy) : Bool :=
  match t with
  | .ptr => false
  | t => t.elem.isSome || t.plain

/-- `byte_count(values...)` (io/byte_utilities.hpp:41-50): the parameters are passed by value, and there is at least
one. -/
def byteCount : List Arg → Bool
  | [] => false
  | [a] => valueSize a.ty.decay
  | a :: as => valueSize a.ty.decay && byteCount as

/-- `byte_count<Ts...>()` (io/byte_utilities.hpp:52-61). -/
def byteCountTys : List VTy → Bool
  | [] => false
  | [t] => t.plain
  | t :: ts => t.plain && byteCountTys ts

/-! ## Reading -/

/-- `unchecked_read<T>(iterator)` (io/byte_buffer_read.hpp:37-52). -/
def uncheckedRead (t : VTy) (b : Buf) : Bool := b.jumps && t.plain

/-- `_recursive_read` (io/byte_buffer_read.hpp:58-70). -/
def recursiveRead : List VTy → Buf → Bool
  | [], _ => false
  | [t], b => b.rangeLike && uncheckedRead t b
  | t :: ts, b => b.rangeLike && uncheckedRead t b && b.spans && recursiveRead ts b.asSpan

/-- `read<Ts...>(buffer)` (io/byte_buffer_read.hpp:77-84). -/
def read (ts : List VTy) (b : Buf) : Bool := b.rangeLike && byteCountTys ts && recursiveRead ts b

/-- `read_range(buffer, range)` (io/byte_buffer_read.hpp:88-106): `std::ranges::generate` assigns to the elements. -/
def readRange (r : Arg) (b : Buf) : Bool :=
  match r.ty.elem with
  | some t => b.rangeLike && byteCount [r] && uncheckedRead t b && !r.isConst
  | none => false

/-- `read_at<Ts...>(position, buffer)` (io/byte_buffer_read.hpp:110-121). -/
def readAt (ts : List VTy) (b : Buf) : Bool := b.rangeLike && byteCountTys ts && b.spans && read ts b.asSpan

/-- `read_range_at(position, buffer, range)` (io/byte_buffer_read.hpp:125-137). -/
def readRangeAt (r : Arg) (b : Buf) : Bool :=
  r.ty.elem.isSome && b.rangeLike && byteCount [r] && b.spans && readRange r b.asSpan

/-- `try_read<T>(buffer)` (io/byte_buffer_read.hpp:143-151, 177-185). -/
def tryReadOne (t : VTy) (b : Buf) : Bool := b.rangeLike && t.plain && uncheckedRead t b

/-- `try_read_range(buffer, range)` (io/byte_buffer_read.hpp:155-173): `typename Range_T::value_type` in line 158; for an
lvalue `Range_T` is a reference, which has no nested types. -/
def tryReadRange (r : Arg) (b : Buf) : Bool :=
  match r.ty.elem with
  | some t => b.rangeLike && !r.lvalue && byteCountTys [t] && uncheckedRead t b && !r.isConst
  | none => false

/-- `try_read_at<T>(position, buffer)` (io/byte_buffer_read.hpp:189-217). -/
def tryReadAtOne (t : VTy) (b : Buf) : Bool := b.rangeLike && t.plain && b.spans && tryReadOne t b.asSpan

/-- `try_read_range_at(position, buffer, range)` (io/byte_buffer_read.hpp:221-233); the result type is a `result` of a
reference for an lvalue. -/
def tryReadRangeAt (r : Arg) (b : Buf) : Bool :=
  r.ty.elem.isSome && b.rangeLike && !r.lvalue && byteCount [r] && b.spans && tryReadRange r b.asSpan

/-- `_recursive_try_read` (io/byte_buffer_read.hpp:239-255). -/
def recursiveTryRead : List VTy → Buf → Bool
  | [], _ => false
  | [t], b => tryReadOne t b
  | t :: ts, b => tryReadOne t b && b.spans && recursiveTryRead ts b.asSpan

/-- `try_read<Ts...>(buffer)` (io/byte_buffer_read.hpp:143-151, 177-185, 277-282). -/
def tryRead (ts : List VTy) (b : Buf) : Bool :=
  match ts with
  | [] => false
  | [t] => tryReadOne t b
  | ts => b.rangeLike && recursiveTryRead ts b

/-- `_recursive_try_read_at` (io/byte_buffer_read.hpp:257-271). -/
def recursiveTryReadAt : List VTy → Buf → Bool
  | [], _ => false
  | [t], b => tryReadAtOne t b
  | t :: ts, b => tryReadAtOne t b && recursiveTryReadAt ts b

/-- `try_read_at<Ts...>(position, buffer)` (io/byte_buffer_read.hpp:189-217, 286-291). -/
def tryReadAt (ts : List VTy) (b : Buf) : Bool :=
  match ts with
  | [] => false
  | [t] => tryReadAtOne t b
  | ts => b.rangeLike && recursiveTryReadAt ts b

/-- `little_endian<T>` and `big_endian<T>` can be made (io/encoding.hpp:47-48). -/
def VTy.wraps : VTy → Bool
  | .int wide => wide
  | _ => false

/-- `read_with_endian<T>(buffer, endianness)` (io/byte_buffer_read.hpp:297-305). -/
def readWithEndian (t : VTy) (b : Buf) : Bool := b.rangeLike && t.plain && t.wraps && read [.wrapped] b

/-- `from_bytes<T>(buffer)` (io/byte_buffer_read.hpp:309-313). -/
def fromBytes (t : VTy) (b : Buf) : Bool := t.plain && b.rangeLike && read [t] b

/-- `try_from_bytes<T>(buffer)` (io/byte_buffer_read.hpp:319-323). -/
def tryFromBytes (t : VTy) (b : Buf) : Bool := t.plain && b.rangeLike && tryRead [t] b

/-! ## Writing -/

/-- `_write_single_value` (io/byte_buffer_write.hpp:44-49). -/
def writeSingleValue (t : VTy) : Bool := t.elem.isNone && !t.encoded

/-- `unchecked_write(iterator, value)` (io/byte_buffer_write.hpp:74-94), with `_write_single_range_value` (51-68). -/
def uncheckedWrite (b : Buf) (a : Arg) : Bool :=
  !b.isConst && b.width == 1 &&
    (if a.ty.decay.encoded then true
     else match a.ty.decay.elem with
      | some t => t.plain && writeSingleValue t && valueSize t
      | none => a.ty.decay.plain && writeSingleValue a.ty.decay)

/-- `_recursive_unsafe_write` for iterators (io/byte_buffer_write.hpp:100-109). -/
def recursiveUnsafeWrite (b : Buf) : List Arg → Bool
  | [] => false
  | [a] => b.jumps && uncheckedWrite b a
  | a :: as => b.jumps && uncheckedWrite b a && byteCount [a] && recursiveUnsafeWrite b as

/-- `write(buffer, values...)` (io/byte_buffer_write.hpp:123-130). -/
def write (b : Buf) (as : List Arg) : Bool := b.rangeLike && byteCount as && recursiveUnsafeWrite b as

/-- `std::span<std::decay_t<decltype(*begin)>>{begin, end}` (io/byte_buffer_write.hpp:136): contiguous and not
constant. -/
def Buf.mutableSpan (b : Buf) : Bool := b.spans && !b.isConst

/-- `write(begin, end, values...)` (io/byte_buffer_write.hpp:134-137). -/
def writeIter (b : Buf) (as : List Arg) : Bool := b.jumps && b.mutableSpan && write b.asSpan as

/-- `_try_write_single_value` and `_try_write_range_value` (io/byte_buffer_write.hpp:145-163), behind
`try_write(buffer, value)` (169-176).  The iterator is not constrained here. -/
def tryWriteOne (b : Buf) (a : Arg) : Bool := b.rangeLike && byteCount [a] && uncheckedWrite b a

/-- `try_write(begin, end, value)` (io/byte_buffer_write.hpp:180-189). -/
def tryWriteIterOne (b : Buf) (a : Arg) : Bool := b.jumps && b.mutableSpan && tryWriteOne b.asSpan a

/-- An argument handed on by value: the parameter is a variable (io/byte_buffer_write.hpp:217, 239 and 262). -/
def Arg.copied (a : Arg) : Arg := ⟨a.ty.decay, false, true⟩

/-- `_recursive_try_write` for iterators (io/byte_buffer_write.hpp:216-234). -/
def recursiveTryWriteIter (b : Buf) : List Arg → Bool
  | [] => false
  | [a] => b.jumps && tryWriteIterOne b a.copied
  | a :: as => b.jumps && tryWriteIterOne b a.copied && byteCount [a.copied] && recursiveTryWriteIter b as

/-- `_recursive_try_write` for a buffer (io/byte_buffer_write.hpp:238-255). -/
def recursiveTryWrite (b : Buf) : List Arg → Bool
  | [] => false
  | [a] => b.rangeLike && tryWriteOne b a.copied
  | a :: as => b.rangeLike && tryWriteOne b a.copied && byteCount [a.copied] && recursiveTryWriteIter b as

/-- `try_write(buffer, values...)` (io/byte_buffer_write.hpp:169-176, 300-304). -/
def tryWrite (b : Buf) (as : List Arg) : Bool :=
  match as with
  | [] => false
  | [a] => tryWriteOne b a
  | as => b.rangeLike && recursiveTryWrite b as

/-- `try_write(begin, end, values...)` (io/byte_buffer_write.hpp:180-189, 308-312). -/
def tryWriteIter (b : Buf) (as : List Arg) : Bool :=
  match as with
  | [] => false
  | [a] => tryWriteIterOne b a
  | as => b.jumps && recursiveTryWriteIter b as

/-- `try_write_at(position, buffer, value)` (io/byte_buffer_write.hpp:193-210): the value is a parameter passed by value
and has to be `is_buffer_writeable` itself. -/
def tryWriteAtOne (b : Buf) (a : Arg) : Bool :=
  b.rangeLike && a.ty.decay.plain && byteCount [a.copied] && tryWriteIterOne b a.copied

/-- `_recursive_try_write_at` (io/byte_buffer_write.hpp:259-275). -/
def recursiveTryWriteAt (b : Buf) : List Arg → Bool
  | [] => false
  | [a] => tryWriteAtOne b a.copied
  | a :: as => tryWriteAtOne b a.copied && recursiveTryWriteAt b as

/-- `try_write_at(position, buffer, values...)` (io/byte_buffer_write.hpp:193-210, 316-320). -/
def tryWriteAt (b : Buf) (as : List Arg) : Bool :=
  match as with
  | [] => false
  | [a] => tryWriteAtOne b a
  | as => b.rangeLike && recursiveTryWriteAt b as

/-- `write_at(position, buffer, values...)` (io/byte_buffer_write.hpp:281-294). -/
def writeAt (b : Buf) (as : List Arg) : Bool := b.rangeLike && byteCount as && recursiveUnsafeWrite b as

/-- `static_byte_buffer` (io/types.hpp:50-51), the default result of `to_bytes`. -/
def staticBuffer : Buf := ⟨.owner, false, 1⟩

/-- `to_bytes(value)` (io/byte_buffer_write.hpp:341-349). -/
def toBytes (a : Arg) : Bool := a.ty.decay.plain && write staticBuffer [a]

/-- `try_to_bytes(value)` (io/byte_buffer_write.hpp:324-335): `is_buffer_writeable<Value_T>`, and for an lvalue `Value_T`
is a reference, which is neither standard-layout nor derived from anything. -/
def tryToBytes (a : Arg) : Bool := !a.lvalue && a.ty.plain && tryWrite staticBuffer [a]

/-- `write_with_endian(buffer, value, endianness)` (io/byte_buffer_write.hpp:353-361). -/
def writeWithEndian (b : Buf) (a : Arg) : Bool :=
  b.rangeLike && a.ty.decay.plain && a.ty.decay.wraps && write b [⟨.wrapped, false, false⟩]

/-- `write_with_endian(begin, end, value, endianness)` (io/byte_buffer_write.hpp:363-367). -/
def writeWithEndianIter (b : Buf) (a : Arg) : Bool :=
  b.jumps && a.ty.decay.plain && b.mutableSpan && writeWithEndian b.asSpan a.copied

/-! ## Views and streams -/

/-- `byte_read_buffer_view{buffer}` (io/byte_read_buffer_view.hpp:34-40, 133-137): names `buffer_type::const_iterator`
(line 128). -/
def readView (b : Buf) : Bool :=
  b.rangeLike && (match b.kind with
    | .span => false
    | _ => true)

/-- `view.read<Ts...>()` (io/byte_read_buffer_view.hpp:77-83). -/
def viewRead (ts : List VTy) (b : Buf) : Bool :=
  readView b && b.spans && read ts ⟨.span, true, b.width⟩ && byteCountTys ts

/-- `view.read_range(range)` (io/byte_read_buffer_view.hpp:85-91). -/
def viewReadRange (r : Arg) (b : Buf) : Bool := readView b && b.spans && readRange r ⟨.span, true, b.width⟩

/-- `view.try_read<Ts...>()` (io/byte_read_buffer_view.hpp:103-111). -/
def viewTryRead (ts : List VTy) (b : Buf) : Bool :=
  readView b && b.spans && tryRead ts ⟨.span, true, b.width⟩ && byteCountTys ts

/-- `view.try_read_range(range)` (io/byte_read_buffer_view.hpp:113-123). -/
def viewTryReadRange (r : Arg) (b : Buf) : Bool := readView b && b.spans && tryReadRange r ⟨.span, true, b.width⟩

/-- `view.write(values...)` (io/byte_write_buffer_view.hpp:74-80): the view is made from a buffer that is not constant. -/
def viewWrite (b : Buf) (as : List Arg) : Bool := b.rangeLike && !b.isConst && writeIter b as

/-- `view.try_write(values...)` (io/byte_write_buffer_view.hpp:92-100). -/
def viewTryWrite (b : Buf) (as : List Arg) : Bool := b.rangeLike && !b.isConst && tryWriteIter b as

/-- `read<T>(stream)` (io/byte_stream.hpp:25-32); a function cannot return a built-in array. -/
def streamRead (t : VTy) : Bool :=
  match t with
  | .carray _ => false
  | t => t.podLike

/-- `write(stream, value)` (io/byte_stream.hpp:36-40): passed by value. -/
def streamWrite (a : Arg) : Bool := a.ty.decay.podLike

end Wite.IoCalls
