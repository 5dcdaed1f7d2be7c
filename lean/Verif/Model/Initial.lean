import Verif.Model.Outcome

/-!
# Model of objects declared without an initialiser

What the members of the library's value types are when an object is declared as `T x;`, as `T x{};` or with static storage.  All of the
types have the constructors of `WITE_DEFAULT_CONSTRUCTORS` (common/constructor_macros.hpp:11-16), the default constructor being `= default`, or are
aggregates; so the rules of the language decide ([dcl.init.general], [class.base.init]): a default-initialised scalar has an
indeterminate value, and reading it is undefined.

An object is given by its scalars, in the order of the declarations (base classes first), each 0, null or empty (`some 0`) or
indeterminate (`none`).  Objects of classes that initialise themselves (`std::basic_string_view`, `std::optional`) count as one
scalar.  Simplification: reading an indeterminate `unsigned char` or `std::byte`, which is defined in some places, counts as
undefined.
-/

namespace Wite.Initial

/-- How an object is composed. -/
inductive Desc where
  /-- A number or a pointer. -/
  | scalar
  /-- A class of the standard library with a default constructor that makes it empty. -/
  | ready
  /-- A member or base class followed by others. -/
  | pair (a b : Desc)
  /-- A member with the initialiser `{}`, `{0}` or `{nullptr}`. -/
  | braced (d : Desc)
  /-- A built-in array or a `std::array`. -/
  | array (n : Nat) (d : Desc)
  deriving DecidableEq, Repr

/-- A scalar of an object: `none` is indeterminate. -/
abbrev Cell := Option Int

/-- The number of scalars. -/
def Desc.size : Desc → Nat
  | .scalar => 1
  | .ready => 1
  | .pair a b => a.size + b.size
  | .braced d => d.size
  | .array n d => n * d.size

/-- Zero-initialisation. -/
def zeros (d : Desc) : List Cell := List.replicate d.size (some 0)

/-- What initialisation does to an object that was zeroed before: scalars it leaves alone stay zero. -/
def overlay (zeroed after : List Cell) : List Cell := List.zipWith (fun z a => a.orElse fun _ => z) zeroed after

/-- Default-initialisation: `T x;`, `new T`, an element of `T x[3];`.  The initialiser `{}` of a member value-initialises it: it is zeroed and
then default-initialised. -/
def plain : Desc → List Cell
  | .scalar => [none]
  | .ready => [some 0]
  | .pair a b => plain a ++ plain b
  | .braced d => overlay (zeros d) (plain d)
  | .array n d => (List.replicate n (plain d)).flatten

/-- Value-initialisation: `T x{};`, `T()`, `T x = {};`, elements of `std::vector<T>(n)`. -/
def braces (d : Desc) : List Cell := overlay (zeros d) (plain d)

/-- A variable with static or thread storage, `static T x;`: zeroed and then default-initialised. -/
def static (d : Desc) : List Cell := overlay (zeros d) (plain d)

/-- Reading the scalars of an object: copying, comparing or printing it, `value()`, `min()`, `contains(...)` and the like. -/
def readAll : List Cell → Outcome (List Int)
  | [] => .ok []
  | none :: _ => .ub
  | some v :: cs => do
    let vs ← readAll cs
    pure (v :: vs)

/-- A defaulted `==` and the `==` from a defaulted `<=>`: scalar by scalar, up to the first difference. -/
def equal : List Cell → List Cell → Outcome Bool
  | [], _ => .ok true
  | _, [] => .ok true
  | some v :: cs, some w :: ds => if v = w then equal cs ds else .ok false
  | none :: _, _ => .ub
  | _, none :: _ => .ub

/-! ## The types -/

/-- `basic_uuid` (core/uuid/basic_uuid.hpp:53-63) and `uuid` (core/uuid.hpp:49-51). -/
def uuid : Desc := .braced (.array 16 .scalar)

/-- `id<Obj_T, Id_T>` (core/id.hpp:29-46). -/
def idOf (value : Desc) : Desc := value

/-- `index<Obj_T>` (core/index.hpp:24-107). -/
def index : Desc := .scalar

/-- `value_range` (maths/value_range.hpp:52-137), `open_value_range` and `closed_value_range` (142-157). -/
def range (value : Desc) : Desc := .pair value value

/-- `endianness`, `little_endian` and `big_endian` (io/encoding.hpp:47-65, 96-101). -/
def wrapper : Desc := .scalar

/-- `point` (geometry/point.hpp:41, 93), `point_2d`, `point_3d` and `point_4d` (98-102). -/
def point (n : Nat) : Desc := .array n .scalar

/-- `result` (core/result.hpp:30, 97): a `std::variant` value-initialises an object of its first type. -/
def result (value : Desc) : Desc := .braced value

/-- `static_vector` (collections/static_vector.hpp:66, 195-196): `std::optional`s and the number of elements. -/
def staticVector (capacity : Nat) : Desc := .pair (.braced (.array capacity .ready)) (.braced .scalar)

/-- `basic_fragment_string` (string/fragment_string.hpp:251): string views. -/
def fragments (n : Nat) : Desc := .array n .ready

/-- The iterators of `static_vector` (collections/dereferencing_iterator.hpp:55, 154-160, 191); a debug build has three more pointers. -/
def iter (b : Build) : Desc :=
  match b with
  | .release => .braced .scalar
  | _ => .pair (.braced .scalar) (.pair (.braced .scalar) (.pair (.braced .scalar) (.braced .scalar)))

/-- `arg::reserve` (collections/make_vector.hpp:18-20). -/
def reserveArg : Desc := .braced .scalar

/-- `arg::size` (collections/make_vector.hpp:22-26). -/
def sizeArg (value : Desc) : Desc := .pair (.braced .scalar) (.braced value)

end Wite.Initial
