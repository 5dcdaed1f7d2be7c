import Verif.Model.Uuid
import Verif.Model.Index
import Verif.Model.Point
import Verif.Model.ValueRange
import Mathlib.Data.Nat.Digits.Defs

/-!
# Output streams, and the insertion operators of `core/io.hpp`, `geometry/io.hpp` and `maths/io.hpp`

The part of `std::basic_ostream` the insertions use: the field width, the fill character, the adjustment and base
flags, and the characters written so far.  Simplifications: the stream is in the "C" locale and never fails;
`showpos` has no effect on unsigned numbers and is left out.
-/

namespace Wite

open Wite.Io

/-- `std::ios_base::adjustfield`. -/
inductive Adjust where
  | left
  | right
  | internal
  deriving DecidableEq, Repr

/-- `std::ios_base::basefield`. -/
inductive Base where
  | dec
  | hex
  | oct
  deriving DecidableEq, Repr

/-- An output stream of characters of type `C`. -/
structure OStream (C : Type) where
  width : Nat
  fill : C
  adjust : Adjust
  base : Base
  showbase : Bool
  uppercase : Bool
  out : List C
  deriving DecidableEq, Repr

namespace OStream

variable {C : Type}

/-- Insertion of a string, string view or C string: padded with the fill character to the width, on the right only for
left adjustment; the width is reset to zero ([ostream.formatted.reqmts]). -/
def insertText (s : List C) (os : OStream C) : OStream C :=
  let pad := List.replicate (os.width - s.length) os.fill
  let body := if os.adjust = .left then s ++ pad else pad ++ s
  { os with out := os.out ++ body, width := 0 }

/-- The number of the base. -/
def radix : Base → Nat
  | .dec => 10
  | .hex => 16
  | .oct => 8

/-- The character of a digit. -/
def digitChar (uppercase : Bool) (d : Nat) : Nat := if d < 10 then 48 + d else if uppercase then 55 + d else 87 + d

/-- The digits of an unsigned number as `printf` writes them. -/
def digits (base : Base) (uppercase : Bool) (v : Nat) : List Nat :=
  if v = 0 then [48] else ((Nat.digits (radix base) v).reverse).map (digitChar uppercase)

/-- What `showbase` puts before the digits, as the `#` flag of `printf`: nothing before zero. -/
def basePrefix (base : Base) (showbase uppercase : Bool) (v : Nat) : List Nat :=
  if !showbase || v == 0 then []
  else
    match base with
    | .dec => []
    | .hex => [48, if uppercase then 88 else 120]
    | .oct => [48]

/-- Insertion of a `size_t` (`std::num_put`); internal adjustment pads after `0x`. -/
def insertUnsigned (v : Nat) (os : OStream Nat) : OStream Nat :=
  let pre := basePrefix os.base os.showbase os.uppercase v
  let ds := digits os.base os.uppercase v
  let pad := List.replicate (os.width - (pre ++ ds).length) os.fill
  let body :=
    match os.adjust with
    | .left => pre ++ ds ++ pad
    | .right => pad ++ pre ++ ds
    | .internal => if os.base = .hex then pre ++ pad ++ ds else pad ++ pre ++ ds
  { os with out := os.out ++ body, width := 0 }

/-- `operator<<` for UUIDs (core/io.hpp:20-24 and 28-32): the text of the default format, `'D'`
(core/uuid/basic_uuid.hpp:17-19 and 27). -/
def insertUuid (host : Endian) (id : List Nat) (os : OStream Nat) : Outcome (OStream Nat) := do
  let s ← Uuid.str host id 'D'
  pure (os.insertText s)

/-- `operator<<` for indexes (core/io.hpp:36-40). -/
def insertIndex (idx : Nat) (os : OStream Nat) : OStream Nat := os.insertUnsigned (Index.value idx)

/-- `operator<<` for ids (core/io.hpp:44-48); `put` is the insertion of the wrapped value. -/
def insertId {α : Type} (put : α → OStream C → Outcome (OStream C)) (id : Id α) (os : OStream C) : Outcome (OStream C) :=
  put id.deref os

/-- `operator<<` for points (geometry/io.hpp:14-25 and 27-38): `text` is what the insertion of a coordinate
writes without padding. -/
def insertPoint {α : Type} (text : α → List Char) (p : Geometry.Point α) (os : OStream Char) : Outcome (OStream Char) := do
  let os := os.insertText "[ ".toList
  let x ← p.get 0
  let os := os.insertText (text x)
  let os ← loop os 1 (p.dimensions - 1)
  pure (os.insertText " ]".toList)
where
  /-- The coordinates from `i` on, `n` of them (geometry/io.hpp:18-20 and 31-33). -/
  loop (os : OStream Char) (i : Nat) : Nat → Outcome (OStream Char)
    | 0 => .ok os
    | n + 1 => do
      let os := os.insertText ", ".toList
      let x ← p.get i
      loop (os.insertText (text x)) (i + 1) n

/-- `operator<<` for ranges (maths/io.hpp:14-32 and 34-51). -/
def insertRange {α : Type} {lb hb : Maths.Boundary} (text : α → List Char) (r : Maths.ValueRange α lb hb) (os : OStream Char) :
    OStream Char :=
  let os :=
    match lb with
    | .closed => os.insertText "[ ".toList
    | .opened => os.insertText "( ".toList
  let os := ((os.insertText (text r.lo)).insertText ", ".toList).insertText (text r.hi)
  match hb with
  | .closed => os.insertText " ]".toList
  | .opened => os.insertText " )".toList

end OStream

end Wite
