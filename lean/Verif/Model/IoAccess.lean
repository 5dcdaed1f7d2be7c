import Verif.Model.IoValues
import Verif.Model.Config
import Verif.Model.UuidMore

/-!
# The type an object is accessed as

The reading and writing functions of buffers look at the bytes of a value through a pointer to the *element type of the buffer*:
`reinterpret_cast<Byte_t*>(&out)` (io/byte_buffer_read.hpp:49), `reinterpret_cast<const Byte_T*>(&value)` (io/byte_buffer_write.hpp:47) and
`byte_begin<Byte_T>()` (io/encoding.hpp:67-87, 103-124).  C++ allows any object to be accessed as `char`, `unsigned char` or `std::byte`; as another
type only if the object is of that type or of the signed or unsigned type that belongs to it.  Anything else is undefined behaviour.
`Io.lean`, `IoView.lean` and `IoValues.lean` leave this out.

Simplifications: the elements of the buffer itself always are values of their type; what a compiler makes of undefined behaviour is not modelled;
an access to padding is like one to an object of a type of its own.  Not modelled: `std::vector<bool>`, whose iterators do not refer to objects.
-/

namespace Wite.Io.Access

/-- The types scalar objects have; `enumeration k` and `wider k` are different types for different `k`.  All but `wider` have one byte and can be
elements of a buffer. -/
inductive Scalar where
  | char | uchar | schar | stdByte | char8 | bool
  | enumeration (k : Nat)
  | wider (k : Nat)
  deriving DecidableEq, Repr

/-- The type-accessibility rule of C++ for accesses to an object of type `obj` (`none` is padding) as one of type `via`. -/
def mayAccess (obj : Option Scalar) (via : Scalar) : Bool :=
  match via with
  | .char | .uchar | .stdByte => true
  | .schar => obj == some .schar || obj == some .uchar
  | v => obj == some v

/-- A type that can be read or written: what `IoValues.lean` says of it, and for each of its bytes which scalar it belongs to. -/
structure AccTy where
  val : Values.ValTy
  parts : List (Option Scalar)

/-- All bytes of an object may be accessed as `b`. -/
def accessible (b : Scalar) (parts : List (Option Scalar)) : Bool := parts.all fun p => mayAccess p b

/-- A type as `unchecked_read` (io/byte_buffer_read.hpp:37-52) with a buffer of elements of type `b` meets it: filling an object that may not be accessed as
`b` is undefined, and so no bytes count as a value of it.  The reading functions of buffers and views are those of `IoValues.lean` for such types. -/
def through (b : Scalar) (t : AccTy) : Values.ValTy := if accessible b t.parts then t.val else ⟨t.val.ty, false, fun _ => false⟩

/-- The type of a buffer's elements if it is one of those `WITE_BYTE` can stand for (env/features.hpp:75-122); `int8_t` is `signed char`. -/
def ofByteTy : Config.ByteTy → Scalar
  | .char => .char
  | .u8 => .uchar
  | .i8 => .schar
  | .stdByte => .stdByte
  | .uchar => .uchar

/-! ## Writing -/

/-- An argument of `write`, and for each byte of the value, or of one element of the range, which scalar it belongs to. -/
structure AVal where
  val : WVal
  parts : List (Option Scalar)

/-- The access to a value before its bytes are stored. -/
def touch (b : Scalar) (parts : List (Option Scalar)) : St (List Nat) PUnit := fun buf =>
  if accessible b parts then (.ok ⟨⟩, buf) else (.ub, buf)

/-- `_write_single_value` and `_write_single_encoded_value` (io/byte_buffer_write.hpp:37-42, 44-49). -/
def writeSingle (host : Endian) (b : Scalar) (parts : List (Option Scalar)) (enc : Enc) (o : Obj) (pos : Nat) : St (List Nat) Nat := do
  touch b parts
  Io.writeSingle host enc o pos

/-- `_write_single_range_value` (io/byte_buffer_write.hpp:51-68). -/
def writeRangeLoop (host : Endian) (b : Scalar) (parts : List (Option Scalar)) : List Obj → (written pos : Nat) → St (List Nat) Nat
  | [], written, _ => pure written
  | o :: os, written, pos => do
    let w ← writeSingle host b parts .native o pos
    writeRangeLoop host b parts os (written + w) (pos + o.length)

/-- `unchecked_write(iterator, value)` (io/byte_buffer_write.hpp:74-94). -/
def uncheckedWrite (host : Endian) (b : Scalar) (pos : Nat) (v : AVal) : St (List Nat) Nat :=
  match v.val with
  | .single enc o => writeSingle host b v.parts enc o pos
  | .range _ elems => writeRangeLoop host b v.parts elems 0 pos

/-- `_recursive_unsafe_write` (io/byte_buffer_write.hpp:100-109, 111-115). -/
def recursiveUnsafeWrite (host : Endian) (b : Scalar) : (pos : Nat) → List AVal → St (List Nat) Nat
  | _, [] => pure 0
  | pos, v :: vs => do
    let out ← uncheckedWrite host b pos v
    let rest ← recursiveUnsafeWrite host b (pos + valueSize v.val) vs
    pure ((out + rest) % sizeMod)

/-- `write(begin, end, values...)` and `write(buffer, values...)` (io/byte_buffer_write.hpp:123-130, 134-137). -/
def writeFrom (host : Endian) (b : Scalar) (start : Nat) (vs : List AVal) : St (List Nat) Nat := do
  let buf ← St.get
  if buf.length < start then
    St.ub
  else if buf.length - start < byteCountVals (vs.map (·.val)) then
    St.throw (.outOfRange "Insufficient buffer space for write")
  else
    recursiveUnsafeWrite host b start vs

/-- `try_write` of one value (io/byte_buffer_write.hpp:145-163, 169-189). -/
def tryWriteOne (host : Endian) (b : Scalar) (start : Nat) (v : AVal) : St (List Nat) (Result Nat WriteError) := do
  let buf ← St.get
  if buf.length < start then
    St.ub
  else if buf.length - start < valueSize v.val then
    pure (.error .insufficientBuffer)
  else do
    let n ← uncheckedWrite host b start v
    pure (.value n)

/-- The multi-value `try_write` (io/byte_buffer_write.hpp:216-234, 238-255, 300-312). -/
def recursiveTryWrite (host : Endian) (b : Scalar) : (start : Nat) → List AVal → St (List Nat) (Result Nat WriteError)
  | _, [] => pure (.value 0)
  | start, v :: vs => do
    let first ← tryWriteOne host b start v
    match first with
    | .error e => pure (.error e)
    | .value n =>
      if vs.isEmpty then pure (.value n)
      else do
        let rest ← recursiveTryWrite host b (start + valueSize v.val) vs
        match rest with
        | .error e => pure (.error e)
        | .value m => pure (.value ((n + m) % sizeMod))

/-- `try_write_at` (io/byte_buffer_write.hpp:193-210). -/
def tryWriteAt (host : Endian) (b : Scalar) (pos : Nat) (v : AVal) : St (List Nat) (Result Nat WriteError) := do
  let buf ← St.get
  if (pos + valueSize v.val) % sizeMod < pos then
    pure (.error .invalidPositionOffset)
  else if pos ≥ buf.length then
    pure (.error .insufficientBuffer)
  else do
    let r ← tryWriteOne host b pos v
    match r with
    | .error e => pure (.error e)
    | .value n => pure (.value ((pos + n) % sizeMod))

/-- The multi-value `try_write_at` (io/byte_buffer_write.hpp:259-274, 316-320). -/
def recursiveTryWriteAt (host : Endian) (b : Scalar) : (pos : Nat) → List AVal → St (List Nat) (Result Nat WriteError)
  | pos, [] => pure (.value pos)
  | pos, v :: vs => do
    let first ← tryWriteAt host b pos v
    match first with
    | .error e => pure (.error e)
    | .value n => if vs.isEmpty then pure (.value n) else recursiveTryWriteAt host b n vs

/-- `write_at` (io/byte_buffer_write.hpp:281-294). -/
def writeAt (host : Endian) (b : Scalar) (pos : Nat) (vs : List AVal) : St (List Nat) Nat := do
  let buf ← St.get
  let endPos := (pos + byteCountVals (vs.map (·.val))) % sizeMod
  if endPos < pos then
    St.throw (.invalidArgument "Buffer read position exceeds allowed value")
  else if endPos > buf.length then
    St.throw (.outOfRange "Insufficient buffer space for write")
  else do
    let n ← recursiveUnsafeWrite host b pos vs
    pure ((pos + n) % sizeMod)

/-- `to_bytes(value)` (io/byte_buffer_write.hpp:341-349) with the configured byte type, or with an array of other elements asked for explicitly. -/
def toBytes (host : Endian) (b : Scalar) (parts : List (Option Scalar)) (enc : Enc) (o : Obj) : Outcome (List Nat) :=
  match (writeFrom host b 0 [⟨.single enc o, parts⟩]).run (List.replicate o.length 0) with
  | (.ok _, out) => .ok out
  | (.throw e, _) => .throw e
  | (.ub, _) => .ub
  | (.terminate, _) => .terminate
  | (.diverge, _) => .diverge

/-- `byte_write_buffer_view::write` (io/byte_write_buffer_view.hpp:74-80). -/
def viewWrite (host : Endian) (b : Scalar) (vs : List AVal) : St WriteView Nat := do
  let n ← WriteView.onBuffer (fun pos => writeFrom host b pos vs)
  WriteView.advance n
  pure n

/-! ## UUIDs -/

/-- The storage of a UUID, `std::array<uint8_t, 16>` (core/uuid/basic_uuid.hpp:54). -/
def uuidParts : List (Option Scalar) := List.replicate 16 (some .uchar)

/-- `uint64_t`, one of the wider types. -/
def uint64 : Scalar := .wider 64

/-- An access to the bytes `start, …, start + n - 1` of an object as `via`. -/
def accessed {α : Type} (parts : List (Option Scalar)) (start n : Nat) (via : Scalar) (x : Outcome α) : Outcome α :=
  if accessible via ((parts.drop start).take n) then x else .ub

/-- `std::hash<uuid>` (core/uuid.hpp:258-264, core/uuid/uuid_hash.hpp:16-22) of a UUID at an address: both halves are read as a `uint64_t`. -/
def uuidHash (host : Endian) (h : Nat → Nat) (addr : Nat) (u : List Nat) : Outcome Nat :=
  accessed uuidParts 0 8 uint64 (accessed uuidParts 8 8 uint64 (Uuid.hashAt host h addr u))

/-- The constructor from an engine (core/uuid.hpp:62-76) for an object at an address: both halves are stored as a `uint64_t`. -/
def uuidRandom (host : Endian) (addr r1 r2 : Nat) : Outcome (List Nat) :=
  accessed uuidParts 0 8 uint64 (accessed uuidParts 8 8 uint64 (Uuid.ofRandomAt host addr r1 r2))

/-- `to_string` (core/uuid/uuid_functions.hpp:357-365, 467-470) of any object of 16 bytes that is like a UUID: all bytes are read as `uint8_t`. -/
def uuidText (host : Endian) (parts : List (Option Scalar)) (u : List Nat) (f : Char) : Outcome (List Nat) :=
  accessed parts 0 16 .uchar (Uuid.str host u f)

end Wite.Io.Access
