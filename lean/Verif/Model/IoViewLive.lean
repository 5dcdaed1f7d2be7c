import Verif.Model.IoView

/-!
# Views over a buffer that lives on

`IoView.lean` treats a view as a buffer and an offset.  In io/byte_read_buffer_view.hpp:127-128 and
io/byte_write_buffer_view.hpp:103-104 it is a *reference* to somebody's buffer and an *iterator* into
it.  Here several views share one `std::vector` of bytes whose owner changes it meanwhile, and the
iterators become invalid by the rules of the C++ standard: reallocation invalidates all, inserting at
the end without reallocation the one past the end, erasing those at and after the point of erasure.
-/

namespace Wite.Io.Live

/-- A vector of bytes: its content and its capacity. -/
structure Buf where
  bytes : List Nat
  cap : Nat
  deriving DecidableEq, Repr

/-- The buffer (`none` once destroyed), and for each view the offset of its iterator, `none` if the
iterator has been invalidated. -/
structure World where
  buf : Option Buf
  cursor : Nat → Option Nat

namespace World

/-- Put the cursor of a view somewhere. -/
def put (w : World) (v : Nat) (p : Nat) : World :=
  { w with cursor := fun u => if u = v then some p else w.cursor u }

/-- Keep only the cursors that satisfy a condition. -/
def keep (w : World) (ok : Nat → Bool) : World :=
  { w with cursor := fun u => (w.cursor u).filter ok }

end World

/-! ## Views -/

/-- The constructors with one argument (io/byte_read_buffer_view.hpp:40,
io/byte_write_buffer_view.hpp:39). -/
def make (v : Nat) : World → Outcome Unit × World := fun w =>
  match w.buf with
  | some _ => (.ok (), w.put v 0)
  | none => (.ub, w)

/-- `unchecked_seek` (io/byte_read_buffer_view.hpp:69-71, io/byte_write_buffer_view.hpp:68): starts from
the beginning of the buffer and does not look at the old cursor. -/
def uncheckedSeek (v p : Nat) : World → Outcome Unit × World := fun w =>
  match w.buf with
  | some b => if p ≤ b.bytes.length then (.ok (), w.put v p) else (.ub, w)
  | none => (.ub, w)

/-- `seek` (io/byte_read_buffer_view.hpp:49-56, io/byte_write_buffer_view.hpp:48-55). -/
def seek (v p : Nat) : World → Outcome Unit × World := fun w =>
  match w.buf with
  | some b =>
    if p > b.bytes.length then (.throw (.outOfRange "Cannot seek past end of buffer"), w)
    else uncheckedSeek v p w
  | none => (.ub, w)

/-- `try_seek` (io/byte_read_buffer_view.hpp:60-67, io/byte_write_buffer_view.hpp:59-66); the error code
differs between the views only in its type, `none` stands for it here. -/
def trySeek (v p : Nat) : World → Outcome (Option Bool) × World := fun w =>
  match w.buf with
  | some b =>
    if p > b.bytes.length then (.ok none, w)
    else
      match uncheckedSeek v p w with
      | (.ok _, w') => (.ok (some true), w')
      | (_, w') => (.ub, w')
  | none => (.ub, w)

/-- `read_position`, `write_position` (io/byte_read_buffer_view.hpp:73,
io/byte_write_buffer_view.hpp:70): the distance from the beginning to the cursor. -/
def position (v : Nat) : World → Outcome Nat × World := fun w =>
  match w.buf, w.cursor v with
  | some _, some p => (.ok p, w)
  | _, _ => (.ub, w)

/-- A call on a read view that uses its cursor: `read`, `read_range`, `read_with_endianness`,
`try_read`, `try_read_range` (io/byte_read_buffer_view.hpp:77-123).  It makes a span from the cursor
to the end of the buffer, which is undefined if the cursor is invalid. -/
def reading {α : Type} (v : Nat) (call : St ReadView α) : World → Outcome α × World := fun w =>
  match w.buf, w.cursor v with
  | some b, some p =>
    let r := call.run ⟨b.bytes, p⟩
    (r.1, w.put v r.2.pos)
  | _, _ => (.ub, w)

/-- A call on a write view that uses its cursor: `write`, `write_with_endian`, `try_write`
(io/byte_write_buffer_view.hpp:74-100). -/
def writing {α : Type} (v : Nat) (call : St WriteView α) : World → Outcome α × World := fun w =>
  match w.buf, w.cursor v with
  | some b, some p =>
    let r := call.run ⟨b.bytes, p⟩
    (r.1, { w.put v r.2.pos with buf := some { b with bytes := r.2.data } })
  | _, _ => (.ub, w)

/-! ## The owner of the buffer -/

/-- `buffer[i] = x`. -/
def setByte (i x : Nat) : World → Outcome Unit × World := fun w =>
  match w.buf with
  | some b => if i < b.bytes.length then (.ok (), { w with buf := some { b with bytes := b.bytes.set i x } }) else (.ub, w)
  | none => (.ub, w)

/-- Make the vector hold other bytes of a larger number: with reallocation if they exceed the capacity
(the new capacity is at least their number; `grow` is the library's choice), otherwise the old bytes
stay in place. -/
def enlarge (bytes : List Nat) (grow : Nat) (b : Buf) (w : World) : World :=
  if bytes.length > b.cap then { w.keep (fun _ => false) with buf := some ⟨bytes, max bytes.length grow⟩ }
  else { w.keep (fun p => p < b.bytes.length) with buf := some { b with bytes := bytes } }

/-- `buffer.resize(n)`: value-initialised bytes are added or bytes are erased at the end. -/
def resize (n grow : Nat) : World → Outcome Unit × World := fun w =>
  match w.buf with
  | some b =>
    if n > b.bytes.length then (.ok (), enlarge (b.bytes ++ List.replicate (n - b.bytes.length) 0) grow b w)
    else if n < b.bytes.length then
      (.ok (), { w.keep (fun p => p < n) with buf := some { b with bytes := b.bytes.take n } })
    else (.ok (), w)
  | none => (.ub, w)

/-- `buffer.push_back(x)`. -/
def pushBack (x grow : Nat) : World → Outcome Unit × World := fun w =>
  match w.buf with
  | some b => (.ok (), enlarge (b.bytes ++ [x]) grow b w)
  | none => (.ub, w)

/-- `buffer.reserve(n)`: reallocates if `n` exceeds the capacity. -/
def reserve (n : Nat) : World → Outcome Unit × World := fun w =>
  match w.buf with
  | some b => if n > b.cap then (.ok (), { w.keep (fun _ => false) with buf := some { b with cap := n } }) else (.ok (), w)
  | none => (.ub, w)

/-- `buffer.clear()`. -/
def clear : World → Outcome Unit × World := fun w =>
  match w.buf with
  | some b => (.ok (), { w.keep (fun _ => false) with buf := some { b with bytes := [] } })
  | none => (.ub, w)

/-- The end of the buffer's life; for a view made from a temporary, the end of the expression. -/
def destroy : World → Outcome Unit × World := fun w =>
  match w.buf with
  | some _ => (.ok (), { w with buf := none })
  | none => (.ub, w)

end Wite.Io.Live
