import Mathlib.Logic.Relation
import Verif.Model.Io

/-!
# Model of the build configuration: macros, the `#error` lines and the include graph

A translation unit that includes a header does not compile when the header, or one it includes directly or
indirectly, runs into an `#error` or contains a declaration that is ill-formed for the configuration.  Modelled are
the macros the documentation lists that can do this: `WITE_NO_EXCEPTIONS`, the byte types, the two endianness macros,
and `WITE_DEFAULT_ID_TYPE`, which takes an include away.  Compilers without C++20 are not modelled: every concept the
headers ask for exists.
-/

namespace Wite.Config

open Wite.Io (Endian)

/-- The macros of the documentation that decide whether a header compiles, and what the compiler is. -/
structure Macros where
  /-- `WITE_NO_EXCEPTIONS` is defined -/
  noExceptions : Bool
  /-- `WITE_USER_DEFINED_BYTE_TYPE_CHAR` is defined -/
  byteChar : Bool
  /-- `WITE_USER_DEFINED_BYTE_TYPE_U8` is defined -/
  byteU8 : Bool
  /-- `WITE_USER_DEFINED_BYTE_TYPE_I8` is defined -/
  byteI8 : Bool
  /-- `WITE_LITTLE_ENDIAN` is defined -/
  little : Bool
  /-- `WITE_BIG_ENDIAN` is defined -/
  big : Bool
  /-- `WITE_DEFAULT_ID_TYPE` is defined -/
  idType : Bool
  /-- the standard library has `std::byte` (`__cpp_lib_byte`) -/
  stdByte : Bool
  /-- `char` is a signed type -/
  charSigned : Bool
  deriving DecidableEq, Repr

/-- The types `WITE_BYTE` can stand for. -/
inductive ByteTy where
  | char | u8 | i8 | stdByte | uchar
  deriving DecidableEq, Repr

/-- `WITE_BYTE` (env/features.hpp:75-122): `none` is an `#error`. -/
def byteType (cfg : Macros) : Option ByteTy :=
  if cfg.byteChar then
    if cfg.byteU8 then none
    else if cfg.byteI8 then none
    else some .char
  else if cfg.byteU8 then
    if cfg.byteChar then none
    else if cfg.byteI8 then none
    else some .u8
  else if cfg.byteI8 then
    if cfg.byteU8 then none
    else if cfg.byteChar then none
    else some .i8
  else if cfg.stdByte then some .stdByte
  else some .uchar

/-- The values of a byte type an integer constant in braces may have; outside of them the initialisation is a narrowing
conversion and ill-formed.  `std::byte` is an enumeration over `unsigned char`. -/
def ByteTy.holds (charSigned : Bool) (b : ByteTy) (n : Int) : Bool :=
  match b with
  | .char => if charSigned then decide (-128 ≤ n ∧ n ≤ 127) else decide (0 ≤ n ∧ n ≤ 255)
  | .i8 => decide (-128 ≤ n ∧ n ≤ 127)
  | .u8 | .stdByte | .uchar => decide (0 ≤ n ∧ n ≤ 255)

/-- `system_native_endianness` (io/encoding.hpp:29-43): `none` is an `#error`; `machine` is `endian::native`. -/
def nativeEndianness (cfg : Macros) (machine : Endian) : Option Endian :=
  if cfg.little then
    if cfg.big then none else some .little
  else if cfg.big then some .big
  else some machine

/-- The headers of the library. -/
inductive Header where
  | wite | string | join | split | strip | trim | fragmentString
  | core | result | assert | overload | id | index | scope | uuid | basicUuid | uuidFunctions | uuidHash | coreIo
  | io | byteBuffer | byteBufferFile | byteBufferRead | byteBufferWrite | byteReadBufferView | byteWriteBufferView
  | byteStream | byteUtilities | ioConcepts | encoding | types
  | collections | dereferencingIterator | itemCollection | makeVector | staticLookup | staticVector
  | maths | numeric | valueRange | boundedValue | mathsIo
  | geometry | point | geometryIo | binascii | hexlify | common | concepts | constructorMacros
  | environment | platform | compiler | configuration | features
  deriving DecidableEq, Repr

/-- The headers of the library a header includes: the `#include` lines of each file, for example wite.hpp:10-19,
string.hpp:10-13, core.hpp:10-16, io.hpp:10-20, collections.hpp:10-14, maths.hpp:10-12, core/uuid.hpp:10-17 and
core/id.hpp:10-14, where the include depends on `WITE_DEFAULT_ID_TYPE`. -/
def includes (cfg : Macros) : Header → List Header
  | .wite => [.environment, .binascii, .collections, .common, .core, .geometry, .io, .maths, .string]
  | .string => [.join, .split, .strip, .trim]
  | .join => [.environment]
  | .split => [.environment, .concepts]
  | .strip => [.environment, .trim]
  | .trim => [.environment]
  | .fragmentString => [.constructorMacros, .assert, .environment]
  | .core => [.result, .assert, .overload, .id, .index, .scope, .uuid]
  | .result => [.constructorMacros, .environment]
  | .assert => [.environment]
  | .overload => [.concepts]
  | .id => [.constructorMacros, .environment] ++ if cfg.idType then [] else [.uuid]
  | .index => [.constructorMacros, .assert, .environment]
  | .scope => [.concepts, .constructorMacros, .environment]
  | .uuid => [.hexlify, .constructorMacros, .result, .features, .byteBuffer, .basicUuid, .uuidFunctions, .uuidHash]
  | .basicUuid => [.constructorMacros]
  | .uuidFunctions => [.hexlify, .staticLookup, .constructorMacros, .basicUuid, .features, .byteBuffer]
  | .uuidHash => [.basicUuid]
  | .coreIo => [.id, .index, .uuid, .environment]
  | .io => [.byteBuffer, .byteBufferFile, .byteBufferRead, .byteBufferWrite, .byteReadBufferView, .byteStream,
      .byteUtilities, .byteWriteBufferView, .ioConcepts, .encoding, .types]
  | .byteBuffer => [.byteBufferRead, .byteBufferWrite, .byteReadBufferView, .byteWriteBufferView]
  | .byteBufferFile => [.environment, .types, .concepts]
  | .byteBufferRead => [.features, .encoding, .types, .ioConcepts, .byteUtilities]
  | .byteBufferWrite => [.features, .ioConcepts, .encoding, .types, .byteUtilities]
  | .byteReadBufferView => [.environment, .byteBufferRead, .encoding, .types, .ioConcepts, .byteUtilities]
  | .byteWriteBufferView => [.features, .byteBufferWrite, .encoding, .types, .ioConcepts]
  | .byteStream => [.features]
  | .byteUtilities => [.ioConcepts]
  | .ioConcepts => [.concepts, .features, .encoding]
  | .encoding => [.constructorMacros, .environment, .types]
  | .types => [.result, .environment, .concepts]
  | .collections => [.dereferencingIterator, .itemCollection, .makeVector, .staticLookup, .staticVector]
  | .dereferencingIterator => [.constructorMacros, .assert, .environment]
  | .itemCollection => [.dereferencingIterator, .makeVector, .concepts, .id, .index, .environment]
  | .makeVector => [.overload, .environment]
  | .staticLookup => [.concepts, .environment]
  | .staticVector => [.dereferencingIterator, .constructorMacros, .assert, .environment]
  | .maths => [.numeric, .valueRange, .mathsIo]
  | .numeric => [.concepts, .environment]
  | .valueRange => [.concepts, .constructorMacros, .assert, .environment, .numeric]
  | .boundedValue => [.environment, .valueRange]
  | .mathsIo => [.valueRange]
  | .geometry => [.point, .geometryIo]
  | .point => [.environment, .constructorMacros]
  | .geometryIo => [.point]
  | .binascii => [.hexlify]
  | .hexlify => [.result, .environment, .types]
  | .common => [.concepts, .constructorMacros]
  | .concepts => [.environment]
  | .constructorMacros => []
  | .environment => [.platform, .compiler, .configuration, .features]
  | .platform => []
  | .compiler => []
  | .configuration => [.platform, .compiler]
  | .features => []

/-- Whether the text of this header itself does not compile: the `#error` of the four string headers
(string/join.hpp:12-14, string/split.hpp:13-15, string/strip.hpp:13-15 and string/trim.hpp:12-14), those of the byte
types and the endianness macros, and `constexpr auto _invalid_nibble = io::byte{0xFF};` (binascii/hexlify.hpp:98). -/
def fails (cfg : Macros) : Header → Bool
  | .join | .split | .strip | .trim => cfg.noExceptions
  | .features => (byteType cfg).isNone
  | .encoding => (nativeEndianness cfg .little).isNone
  | .hexlify =>
    match byteType cfg with
    | some b => !b.holds cfg.charSigned 0xFF
    | none => true
  | _ => false

/-- Direct or indirect inclusion, a header being included in itself. -/
def Reaches (cfg : Macros) : Header → Header → Prop :=
  Relation.ReflTransGen (fun a b => b ∈ includes cfg a)

/-- A translation unit that includes this header and nothing else compiles. -/
def Compiles (cfg : Macros) (h : Header) : Prop := ∀ h', Reaches cfg h h' → fails cfg h' = false

end Wite.Config
