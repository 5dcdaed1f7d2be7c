import Verif.Spec.Hex
import Verif.Model.Io

/-!
# Specification of buffer encodings

Independent of how the library walks over bytes: an integer is a number, its encoding a
list of base-256 digits in a stated order.
-/

namespace Wite.Spec

open Wite.Io

/-- A byte. -/
def IsByte (b : Nat) : Prop := b < 256

/-- The number an unsigned integer object with these bytes holds, on a machine of the given
endianness. -/
def intValue (host : Endian) (o : List Nat) : Nat :=
  match host with
  | .little => leValue o
  | .big => beValue o

/-- The object (bytes in memory) of the `n`-byte unsigned integer `v`. -/
def intObject (host : Endian) (n v : Nat) : List Nat :=
  match host with
  | .little => leBytes n v
  | .big => beBytes n v

/-- What a value looks like in a buffer: native values as they are in memory, endian
wrappers as the base-256 digits of the number held. -/
def encode (host : Endian) (enc : Enc) (o : List Nat) : List Nat :=
  match enc with
  | .native => o
  | .littleEndian => leBytes o.length (intValue host o)
  | .bigEndian => beBytes o.length (intValue host o)

/-- What a buffer slice means as an object of a type. -/
def decode (host : Endian) (enc : Enc) (bs : List Nat) : List Nat :=
  match enc with
  | .native => bs
  | .littleEndian => intObject host bs.length (leValue bs)
  | .bigEndian => intObject host bs.length (beValue bs)

/-- Encoding of one argument of `write`. -/
def encodeVal (host : Endian) : WVal → List Nat
  | .single enc o => encode host enc o
  | .range _ elems => elems.flatten

/-- Concatenated encodings. -/
def encodeAll (host : Endian) (vs : List WVal) : List Nat := vs.flatMap (encodeVal host)

/-- An argument whose parts really are objects: bytes below 256, range elements of the
stated size. -/
def GoodVal : WVal → Prop
  | .single _ o => ∀ b ∈ o, IsByte b
  | .range n elems => ∀ o ∈ elems, o.length = n ∧ ∀ b ∈ o, IsByte b

/-- The number of bytes an argument takes. -/
def sizeOfVal : WVal → Nat
  | .single _ o => o.length
  | .range n elems => elems.length * n

/-- Total size of a list of arguments, as a mathematical integer. -/
def totalSize (vs : List WVal) : Nat := (vs.map sizeOfVal).sum

/-- Total size of a list of types. -/
def totalTySize (ts : List Ty) : Nat := (ts.map Ty.size).sum

/-- The values of types `ts` laid out one after another from the start of `buf`. -/
def decodeSeq (host : Endian) : List Ty → List Nat → List Obj
  | [], _ => []
  | t :: ts, buf => decode host t.enc (buf.take t.size) :: decodeSeq host ts (buf.drop t.size)

/-- `buf` with the bytes from `pos` on replaced by `bs`, the rest as it was. -/
def overwrite (buf : List Nat) (pos : Nat) (bs : List Nat) : List Nat :=
  buf.take pos ++ bs ++ buf.drop (pos + bs.length)

/-- The leading values that fit in `room` bytes, one after another. -/
def leadingFit : (room : Nat) → List WVal → List WVal
  | _, [] => []
  | room, v :: vs => if sizeOfVal v ≤ room then v :: leadingFit (room - sizeOfVal v) vs else []

end Wite.Spec
