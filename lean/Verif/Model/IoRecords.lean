import Verif.Model.IoView
import Verif.Model.Uuid

/-!
# Ranges preceded by their sizes

The programs of a user who serialises "the size of a vector ahead of the vector itself", as README.md:657-660
suggests, and reads it back.  They call the members of the views (io/byte_write_buffer_view.hpp,
io/byte_read_buffer_view.hpp) as they are modelled in `Model/IoView.lean`; the vector that is read into is
`std::vector`'s business.

Simplified: the vectors' elements are values of a type of `size` bytes, written and read natively; the vector
that is read into is passed as an rvalue, so that the library makes no copy of it (copies are the business of
`Model/IoAlloc.lean`); what it holds before it is read into is left out.
-/

namespace Wite.Records

open Wite.Io Wite.Uuid

/-- A vector: the size of its elements in bytes, and its elements (README.md:657-660). -/
structure Vec where
  size : Nat
  elems : List Obj
  deriving DecidableEq, Repr

/-- `writer.write(uintN_t{v.size()}, v)` (README.md:657-660; io/byte_write_buffer_view.hpp:74-80): the size as
an unsigned integer of `w` bytes, natively or in an endian wrapper, and the vector. -/
def writeRecord (host : Endian) (enc : Enc) (w : Nat) (v : Vec) : St WriteView Nat :=
  WriteView.write host [.single enc (objectOf host w v.elems.length), .range v.size v.elems]

/-- `writer.try_write(uintN_t{v.size()}, v)` (io/byte_write_buffer_view.hpp:92-100). -/
def tryWriteRecord (host : Endian) (enc : Enc) (w : Nat) (v : Vec) : St WriteView (Result Nat WriteError) :=
  WriteView.tryWrite host [.single enc (objectOf host w v.elems.length), .range v.size v.elems]

/-- Records written one after another (io/byte_write_buffer_view.hpp:74-80). -/
def writeRecords (host : Endian) (enc : Enc) (w : Nat) : List Vec → St WriteView Unit
  | [] => pure ()
  | v :: vs => do
    let _ ← writeRecord host enc w v
    writeRecords host enc w vs

/-- The reading program: its view, and the numbers of bytes it asked the allocator for, the last one first
(io/byte_read_buffer_view.hpp:127-128). -/
structure Reader where
  view : ReadView
  allocs : List Nat
  deriving DecidableEq, Repr

/-- A call of one of the view's members (io/byte_read_buffer_view.hpp:77-123). -/
def onView {α : Type} (x : St ReadView α) : St Reader α := fun r =>
  let o := x r.view
  (o.1, { r with view := o.2 })

/-- `std::vector<T>(n)`, no part of the library: more than `max_size()` elements are a length_error; the
allocator decides on the request in view of those before it.  Nothing is allocated for no elements. -/
def makeVec (heap : List Nat → Nat → Bool) (size n : Nat) : St Reader Unit := fun r =>
  if 2 ^ 63 - 1 < n * size then
    (.throw (.lengthError "cannot create std::vector larger than max_size()"), r)
  else if n * size = 0 then (.ok (), r)
  else if heap r.allocs (n * size) then (.ok (), { r with allocs := n * size :: r.allocs })
  else (.throw .badAlloc, { r with allocs := n * size :: r.allocs })

/-- `auto n = reader.read<uintN_t>(); auto v = reader.read_range(std::vector<T>(n));`
(io/byte_read_buffer_view.hpp:77-91). -/
def readRecord (host : Endian) (enc : Enc) (w size : Nat) (heap : List Nat → Nat → Bool) :
    St Reader (List Obj) := do
  let head ← onView (ReadView.read host [⟨w, enc⟩])
  match head with
  | [o] => do
    makeVec heap size (numberOf host o)
    onView (ReadView.readRange host ⟨size, .native⟩ (numberOf host o))
  | _ => St.ub

/-- The same with `try_read` and `try_read_range` (io/byte_read_buffer_view.hpp:103-123), returning the error
of the call that failed. -/
def tryReadRecord (host : Endian) (enc : Enc) (w size : Nat) (heap : List Nat → Nat → Bool) :
    St Reader (Result (List Obj) ReadError) := do
  let head ← onView (ReadView.tryRead host [⟨w, enc⟩])
  match head with
  | [.value o] => do
    makeVec heap size (numberOf host o)
    onView (ReadView.tryReadRange host ⟨size, .native⟩ (numberOf host o))
  | [.error e] => pure (.error e)
  | _ => St.ub

/-- Records of elements of the given sizes read one after another (io/byte_read_buffer_view.hpp:77-91). -/
def readRecords (host : Endian) (enc : Enc) (w : Nat) (heap : List Nat → Nat → Bool) :
    List Nat → St Reader (List (List Obj))
  | [] => pure []
  | size :: sizes => do
    let v ← readRecord host enc w size heap
    let vs ← readRecords host enc w heap sizes
    pure (v :: vs)

end Wite.Records
