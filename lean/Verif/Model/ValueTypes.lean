import Verif.Model.Outcome

/-!
# Which objects of the library's types can be made, copied, moved and assigned

What the compiler makes of the special member functions of the library's types, from those of the types they are made of: most are
`= default` (common/constructor_macros.hpp:11-16), so they exist exactly if those of all members do.  `std::optional`, `std::array`,
`std::pair` and `std::variant`, of which the members are made, follow the standard.  Not modelled: triviality, `constexpr`, `noexcept`
(C129 has results), arrays of no elements, references and `const` types as parameters.
-/

namespace Wite.ValueTypes

/-- What can be done with the objects of a type: `T{}`, a copy, a move, and assigning from an lvalue and from an rvalue.  (The members
declared by common/constructor_macros.hpp:11-16.) -/
structure Can where
  dflt : Bool
  copy : Bool
  move : Bool
  copyAssign : Bool
  moveAssign : Bool
deriving DecidableEq, Repr

namespace Can

/-- Everything, as for numbers (and everything that WITE_DEFAULT_CONSTRUCTORS asks for, common/constructor_macros.hpp:11-16). -/
def all : Can := ⟨true, true, true, true, true⟩

/-- A class whose members have what is given, all of whose functions are defaulted (common/constructor_macros.hpp:11-16) or implicit:
each exists if it does for all members.  A defaulted move that would be deleted is ignored and the copy is used. -/
def ofMembers (ms : List Can) : Can where
  dflt := ms.all dflt
  copy := ms.all copy
  move := ms.all move || ms.all copy
  copyAssign := ms.all copyAssign
  moveAssign := ms.all moveAssign || ms.all copyAssign

/-- `std::optional<T>`, of which the slots of a vector (collections/static_vector.hpp:47) and guards (core/scope.hpp:71) are made: to
assign, it must also be possible to make a new object. -/
def optional (c : Can) : Can where
  dflt := true
  copy := c.copy
  move := c.move || c.copy
  copyAssign := c.copy && c.copyAssign
  moveAssign := (c.move && c.moveAssign) || (c.copy && c.copyAssign)

/-- `std::variant<T, U>`, of which a result is made (core/result.hpp:21). -/
def variant (v e : Can) : Can where
  dflt := v.dflt
  copy := v.copy && e.copy
  move := (v.move && e.move) || (v.copy && e.copy)
  copyAssign := v.copy && e.copy && v.copyAssign && e.copyAssign
  moveAssign := (v.move && e.move && v.moveAssign && e.moveAssign) || (v.copy && e.copy && v.copyAssign && e.copyAssign)

end Can

/-- The types: those of the library over any others. -/
inductive Ty where
  /-- Any other type. -/
  | other (c : Can)
  /-- UUIDs, indices, points, wrapped numbers, fragment strings and iterators of vectors and collections (core/uuid.hpp:51,
  core/uuid/basic_uuid.hpp:56, core/index.hpp:36, geometry/point.hpp:41 and 102, io/encoding.hpp:56, 65 and 101,
  string/fragment_string.hpp:251, collections/dereferencing_iterator.hpp:55 and 191): members of which everything is possible. -/
  | simple
  /-- `id<Obj, T>` (core/id.hpp:38, 45). -/
  | ident (t : Ty)
  /-- `value_range<T>` and the classes derived from it (maths/value_range.hpp:59, 137-138, 148 and 156). -/
  | range (t : Ty)
  /-- `bounded_value<T>` (maths/bounded_value.hpp:27-30, 39-40): no default constructor. -/
  | bounded (t : Ty)
  /-- `static_vector<T, N>` (collections/static_vector.hpp:66, 195-196), `N` not 0. -/
  | vector (t : Ty)
  /-- `result<V, E>` (core/result.hpp:30, 97). -/
  | result (v e : Ty)
  /-- `static_lookup<K, V, N>` (collections/static_lookup.hpp:42-46, 83), `N` not 0: no default constructor. -/
  | lookup (k v : Ty)
  /-- `identifiable_item_collection<T>` (collections/identifiable_item_collection.hpp:59-61): can be moved only. -/
  | collection (t : Ty)
  /-- `byte_read_buffer_view` and `byte_write_buffer_view` (io/byte_read_buffer_view.hpp:40, 127-128, io/byte_write_buffer_view.hpp:39, 103-104):
  a member is a reference. -/
  | view
  /-- Iterators of a fragment string (string/fragment_string.hpp:48-58, 70-74): some members are `const`. -/
  | fragmentIterator
  /-- `scope_exit`, `scope_success` and `scope_fail` with a function of type `f` (core/scope.hpp:59, 71 and 80-87). -/
  | guard (f : Ty)
deriving DecidableEq, Repr

/-- What can be done with the objects of a type (the places are with `Ty`; common/constructor_macros.hpp:11-16 and 18-23). -/
def can : Ty → Can
  | .other c => c
  | .simple => .all
  | .ident t => .ofMembers [can t]
  | .range t => .ofMembers [can t, can t]
  | .bounded t => { Can.ofMembers [can t, .ofMembers [can t, can t]] with dflt := false }
  | .vector t => .ofMembers [.ofMembers [.optional (can t)], .all]
  | .result v e => .ofMembers [.variant (can v) (can e)]
  | .lookup k v => { Can.ofMembers [.ofMembers [can k, can v]] with dflt := false }
  | .collection _ => ⟨true, false, true, false, true⟩
  | .view => ⟨false, true, true, false, false⟩
  | .fragmentIterator => ⟨false, true, true, false, false⟩
  | .guard f => { Can.ofMembers [.optional (can f)] with dflt := false, copy := false, move := false }

/-- `std::swap(a, b)`: a move and two assignments.  (For results their own, core/result.hpp:91-94 and 100-103, which comes to the same.) -/
def swappable (t : Ty) : Bool := (can t).move && (can t).moveAssign

/-! ## What the members of vectors, results and lookups need -/

/-- The members of a vector that add elements. -/
inductive VectorUse where
  /-- `resize(n)` (collections/static_vector.hpp:141-147) -/
  | resize
  /-- `resize(n, value)` (collections/static_vector.hpp:149-155) -/
  | resizeWith
  /-- `push_back(x)` of an lvalue (collections/static_vector.hpp:157) -/
  | pushBack
  /-- `push_back(std::move(x))` (collections/static_vector.hpp:159) -/
  | pushBackMoved
  /-- The constructor from a list (collections/static_vector.hpp:71-78) -/
  | list
deriving DecidableEq, Repr

/-- `_alloc` compiles (collections/static_vector.hpp:176-178): every new slot is a new optional made of a copy of the value, assigned to the
slot. -/
def allocCompiles (c : Can) : Bool := c.copy && (Can.optional c).moveAssign

/-- The member compiles for elements of this type: the value is handed on by moving (collections/static_vector.hpp:146, 154, 157, 159,
185-187), made anew for `resize(n)` (185), and copied into the slots (collections/static_vector.hpp:176-178, 77). -/
def VectorUse.compiles (u : VectorUse) (c : Can) : Bool :=
  match u with
  | .resize => c.dflt && c.move && allocCompiles c
  | .resizeWith => c.move && allocCompiles c
  | .pushBack => c.copy && c.move && allocCompiles c
  | .pushBackMoved => c.move && allocCompiles c
  | .list => allocCompiles c

/-- The members of a result. -/
inductive ResultUse where
  /-- The constructor from a value (core/result.hpp:27) -/
  | ofValue
  /-- The constructor from an error (core/result.hpp:28) -/
  | ofError
  /-- `value_or` with something of the value's type (core/result.hpp:52-59) -/
  | valueOr
  /-- `and_then` (core/result.hpp:61-68) -/
  | andThen
  /-- `transform` (core/result.hpp:70-74) -/
  | transform
  /-- `or_else` (core/result.hpp:76-83) -/
  | orElse
  /-- `transform_error` (core/result.hpp:85-89) -/
  | transformError
  /-- `swap` (core/result.hpp:91-94 and 100-103) -/
  | swap
deriving DecidableEq, Repr

/-- The member compiles for this value and error: the constructors move (core/result.hpp:27-28); `value_or` copies the value (55);
`and_then` and `or_else` copy the result (66, 79) and are given functions that return what a result can be made of; `transform` and
`transform_error` assign (72, 87). -/
def ResultUse.compiles (u : ResultUse) (v e : Ty) : Bool :=
  let r := can (.result v e)
  match u with
  | .ofValue => (can v).move
  | .ofError => (can e).move
  | .valueOr => (can v).copy
  | .andThen | .orElse => r.copy
  | .transform | .transformError => r.copy && r.moveAssign
  | .swap => swappable (.result v e)

/-- A lookup can be made (collections/static_lookup.hpp:42-46, 58-66): its pairs are made without values first, and the mappings are handed on
by copying and then assigned. -/
def lookupCompiles (k v : Ty) : Bool :=
  (can k).dflt && (can v).dflt && (can k).copy && (can v).copy && (can k).copyAssign && (can v).copyAssign

end Wite.ValueTypes
