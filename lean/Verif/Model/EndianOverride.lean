import Verif.Model.Uuid

/-!
# Model of a build that overrides the native byte order

`WITE_LITTLE_ENDIAN` and `WITE_BIG_ENDIAN` set `system_native_endianness` (io/encoding.hpp:29-43) without looking at
the machine, so there are two byte orders: `native`, what the library takes for the order of the machine, and `machine`,
the order the compiler really stores integers in.  In the model of the buffer functions the parameter called `host` is
the first; the second matters as soon as numbers, not the bytes of objects, are looked at.  In every other file the two
are the same.
-/

namespace Wite.Override

open Wite.Io Wite.Uuid

/-- A number as an argument of `io::write`: how it is wrapped (not at all, in `io::little_endian` or in
`io::big_endian`, io/encoding.hpp:47-130), the size of its unsigned integer type and its value. -/
structure Num where
  enc : Enc
  size : Nat
  value : Nat
  deriving DecidableEq, Repr

/-- The argument as the buffer functions see it: the machine has stored the number. -/
def Num.arg (machine : Endian) (v : Num) : WVal := .single v.enc (objectOf machine v.size v.value)

/-- `io::write(buffer, values...)` (io/byte_buffer_write.hpp:123-130) of numbers. -/
def write (native machine : Endian) (vs : List Num) : St (List Nat) Nat := Io.write native (vs.map (Num.arg machine))

/-- `io::read<Ts...>(buffer)` (io/byte_buffer_read.hpp:77-84) of numbers: what the machine makes of the objects. -/
def read (native machine : Endian) (ts : List Ty) (buf : List Nat) : Outcome (List Nat) := do
  let os ← Io.read native ts buf
  pure (os.map (numberOf machine))

/-- `_to_c_str` (core/uuid/uuid_functions.hpp:351-383): the fields are read through `io::little_endian`, the numbers are
printed by the machine. -/
def toCStrFmt (native machine : Endian) (id : List Nat) (fmt : Format) (maxLen : Nat) : St (List Nat) Bool := do
  if maxLen < fmt.size + 1 then pure false
  else do
    let (d1, p1) ← St.lift (uncheckedRead native ⟨4, .littleEndian⟩ id 0)
    let (d2, p2) ← St.lift (uncheckedRead native ⟨2, .littleEndian⟩ id p1)
    let (d3, _) ← St.lift (uncheckedRead native ⟨2, .littleEndian⟩ id p2)
    let d4 ← St.lift (readMem id 8 8)
    let text ← St.lift (match parseFormat fmt.format.toList with
      | some toks => formatText toks (numberOf machine d1 :: numberOf machine d2 :: numberOf machine d3 :: d4)
      | none => .ub)
    snprintf maxLen text
    pure true

/-- `_to_string(id, fmt)` (core/uuid/uuid_functions.hpp:387-394). -/
def toStringFmt (native machine : Endian) (id : List Nat) (fmt : Format) : Outcome (List Nat) :=
  match (toCStrFmt native machine id fmt (1 + X.size)).run (List.replicate (1 + X.size) 0) with
  | (.ok _, mem) => ofCStr mem
  | (.throw e, _) => .throw e
  | (.ub, _) => .ub
  | (.terminate, _) => .terminate
  | (.diverge, _) => .diverge

/-- `_to_string(id, char)` (core/uuid/uuid_functions.hpp:398-427), behind `to_string`, `to_wstring` (467-477), `str` and
`wstr` (core/uuid.hpp:96-97). -/
def str (native machine : Endian) (id : List Nat) (f : Char) : Outcome (List Nat) :=
  match printFormat f with
  | some fmt => toStringFmt native machine id fmt
  | none => .throw (.invalidArgument "Invalid UUID format type")

/-- The constructor from four fields (core/uuid.hpp:56-58). -/
def ofFields (native machine : Endian) (d1 d2 d3 : Nat) (d4 : List Nat) : Outcome (List Nat) :=
  match (Io.write native [.single .littleEndian (objectOf machine 4 d1), .single .littleEndian (objectOf machine 2 d2),
      .single .littleEndian (objectOf machine 2 d3), .range 1 (d4.map fun b => [b])]).run
      (List.replicate 16 0) with
  | (.ok _, out) => .ok out
  | (.throw e, _) => .throw e
  | (.ub, _) => .ub
  | (.terminate, _) => .terminate
  | (.diverge, _) => .diverge

end Wite.Override
